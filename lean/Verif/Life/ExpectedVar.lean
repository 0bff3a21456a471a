import Verif.Life.VariantProps

/-!
# `templates::Expected` (include/FlameIDE/Templates/Expected.hpp)

One `mutable Variant<Result, Error>` member (71); all operations are operations of `Variant` on it.  Type 0 is
`Result`, type 1 is `Error`, type 2 stands for `const Error` (not in the pack).

Not modelled: what the handlers do, except whether they move the value out of the reference they are given.
-/

namespace Flame.Life.ExpectedVar
open Flame.Own Flame.Life.Variant

variable {V : Type}

/-- `Variant<Result, Error>` (71). -/
def pack : List Nat := [0, 1]

inductive Op (V : Type) where
  /-- `Expected()` (23) -/
  | declare (i : Nat)
  /-- `Expected(const Result &)`, `Expected(Result &&)` (83-89) -/
  | fromResult (i : Nat) (v : V)
  /-- `Expected(const Error &)`, `Expected(Error &&)` (91-97) -/
  | fromError (i : Nat) (v : V)
  /-- the defaulted copy constructor (24), from a const or non-const source -/
  | copy (i j : Nat)
  /-- the defaulted move constructor (25) -/
  | moveCtor (i j : Nat)
  /-- the defaulted copy assignment (33) -/
  | assign (i j : Nat)
  /-- the defaulted move assignment (34) -/
  | moveAssign (i j : Nat)
  /-- `operator=(const Result &)`, `operator=(Result &&)` (99-113) -/
  | setResult (i : Nat) (v : V)
  /-- `operator=(const Error &)` (115-121), also taken by any named (lvalue) error -/
  | setErrorConst (i : Nat) (v : V)
  /-- `operator=(Error &&)` (123-129) -/
  | setErrorMove (i : Nat) (v : V)
  /-- `done()` (183-187) -/
  | done (i : Nat)
  /-- destructor -/
  | drop (i : Nat)
  deriving DecidableEq

/-- The operation on the member.

* The implicit copy constructor initializes the member from `other.variant`; the member is `mutable`, so this is
  a non-const lvalue and selects `Variant(T &&)` (`copyVar`).
* `operator=(const Error &)` calls `variant.set(move(error))`; `move` of a `const Error &` is a `const Error &&`,
  for which `set` deduces `T = const Error`, a type different from `Error` (`ComparingTypes` compares exactly). -/
def toVariant : Op V → Variant.Op V
  | .declare i => .declare i
  | .fromResult i v => .ctor i 0 v
  | .fromError i v => .ctor i 1 v
  | .copy i j => .copyVar i j
  | .moveCtor i j => .moveCtor i j
  | .assign i j => .assign i j
  | .moveAssign i j => .moveAssign i j
  | .setResult i v => .set i 0 v
  | .setErrorConst i v => .set i 2 v
  | .setErrorMove i v => .set i 1 v
  | .done i => .reset i
  | .drop i => .drop i

def step (moved : V → V) (s : St V) (o : Op V) : Res (St V) := Variant.step pack moved s (toVariant o)

/-- Variables are declared before use and only once. -/
def declared (s : St V) (o : Op V) : Prop := Variant.declared s (toVariant o)

instance [DecidableEq V] (s : St V) (o : Op V) : Decidable (declared s o) := inferInstanceAs (Decidable (Variant.declared _ _))

/-- A handler passed to `ifResult` (type 0) or `ifError` (type 1); `takes` says whether it moves the value out of
the rvalue reference it gets from the non-const overloads. -/
structure Handler where
  ty : Nat
  takes : Bool
  deriving DecidableEq

/-- The non-const `ifResult` (131-142) and `ifError` (157-168): new state and the call made, if any. -/
def handle (moved : V → V) (s : St V) (i : Nat) (h : Handler) : Res (St V × List (Nat × V)) :=
  match s.vars i with
  | some x => match getType pack x h.ty with
    | some k => match readMember s i k with
      | .ok c =>
        let s := { s with log := .used c.obj :: s.log }
        .ok (if h.takes then takeFrom moved s i else s, [(h.ty, c.val)])
      | .ub => .ub
      | .loop => .loop
    | none => .ok (s, [])
  | none => .ub

/-- A chain `e.ifResult(f).ifError(g)…`: the calls made, in order. -/
def chain (moved : V → V) (s : St V) (i : Nat) : List Handler → Res (St V × List (Nat × V))
  | [] => .ok (s, [])
  | h :: hs => match handle moved s i h with
    | .ok (s, c) => match chain moved s i hs with
      | .ok (s, cs) => .ok (s, c ++ cs)
      | .ub => .ub
      | .loop => .loop
    | .ub => .ub
    | .loop => .loop

/-- The const `ifResult` (144-155) and `ifError` (170-181) hand out a const reference: nothing can be moved out. -/
def chainConst (moved : V → V) (s : St V) (i : Nat) (hs : List Handler) : Res (St V × List (Nat × V)) :=
  chain moved s i (hs.map fun h => { h with takes := false })

/-! ## Specification -/

/-- What an `Expected` holds: `none` no variable, `some none` nothing, `some (some (0, r))` a result,
`some (some (1, e))` an error. -/
abbrev Abs (V : Type) := Nat → Option (Option (Nat × V))

def spec (moved : V → V) (a : Abs V) : Op V → Abs V
  | .declare i | .done i => upd a i (some none)
  | .fromResult i v | .setResult i v => upd a i (some (some (0, v)))
  | .fromError i v | .setErrorConst i v | .setErrorMove i v => upd a i (some (some (1, v)))
  | .copy i j | .assign i j => upd a i (a j)
  | .moveCtor i j | .moveAssign i j =>
    if i = j then a else upd (upd a i (a j)) j ((a j).map (Option.map fun p => (p.1, moved p.2)))
  | .drop i => upd a i none

/-- The calls a chain of handlers must make when a value `v` of type `t` is stored: exactly the handlers of that
type, in order; each gets the value, or what an earlier one left of it. -/
def calls (moved : V → V) (t : Nat) (v : V) : List Handler → List (Nat × V)
  | [] => []
  | h :: hs => if h.ty = t then (t, v) :: calls moved t (if h.takes then moved v else v) hs else calls moved t v hs

/-- What keeps the contents as specified. -/
def careful (s : St V) (o : Op V) : Prop := declared s o ∧ match o with
  | .copy _ j => indexOf s j < 0
  | .assign i j | .moveAssign i j => i = j ∨ 0 ≤ indexOf s j
  | .setErrorConst _ _ => False
  | _ => True

instance [DecidableEq V] (s : St V) (o : Op V) : Decidable (careful s o) := by
  cases o <;> unfold careful <;> simp only <;> infer_instance

end Flame.Life.ExpectedVar
