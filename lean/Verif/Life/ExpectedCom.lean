import Verif.Life.Held

/-!
# `flame_ide::Expected` (include/FlameIDE/Common/Expected.hpp)

A program state: the live `Expected<Result, Error>` variables, the number of value objects constructed so far and
the event log of their lifetimes.

* `state` is `data.state` (51-75): `none` = UNKNOWN, `some false` = RESULT, `some true` = ERROR.  The common first
  member of the union is one cell.
* `mem` is what the last placement new left in the union: identity, which member, value.  It stays there after the
  destructor runs.
* `moved v` is what the value type's move constructor leaves behind in its source.

Destroying or reading a member that is not the constructed one, or no longer alive, is undefined (`ub`).
Values passed to constructors and assignments live outside the model.
-/

namespace Flame.Life.ExpectedCom
open Flame.Own

variable {V : Type}

structure Cell (V : Type) where
  obj : Nat
  err : Bool
  val : V
  deriving DecidableEq

structure Var (V : Type) where
  state : Option Bool
  mem : Option (Cell V)
  deriving DecidableEq

structure St (V : Type) where
  vars : Nat → Option (Var V)
  next : Nat
  log : List Ev

def init : St V := ⟨fun _ => none, 0, []⟩

/-- `Data()` (60). -/
def fresh : Var V := ⟨none, none⟩

/-- Common/Expected.hpp 261-278 `destroy`: the state is left as it is. -/
def destroy (x : Var V) (log : List Ev) : Res (List Ev) :=
  match x.state with
  | none => .ok log
  | some k => match x.mem with
    | some c => if c.err = k ∧ Live c.obj log then .ok (.closed c.obj :: log) else .ub
    | none => .ub

/-- Placement new of the member `k` and the new state (162-163, 172-173, 182-183, 192-193). -/
def place (s : St V) (i : Nat) (k : Bool) (v : V) (log : List Ev) : St V :=
  { vars := upd s.vars i (some ⟨some k, some ⟨s.next, k, v⟩⟩), next := s.next + 1, log := .made s.next :: log }

/-- Common/Expected.hpp 157-195 `operator=(value)`, all four: `destroy()`, placement new, set the state. -/
def assignValue (s : St V) (i : Nat) (k : Bool) (v : V) : Res (St V) :=
  match s.vars i with
  | none => .ub
  | some x => match destroy x s.log with
    | .ok log => .ok (place s i k v log)
    | .ub => .ub
    | .loop => .loop

/-- Access to the member named by the state of variable `j` (205, 219, 232, 246). -/
def read (s : St V) (j : Nat) : Res (Option (Cell V)) :=
  match s.vars j with
  | none => .ub
  | some ⟨none, _⟩ => .ok none
  | some ⟨some k, some c⟩ => if c.err = k ∧ Live c.obj s.log then .ok (some c) else .ub
  | some ⟨some _, none⟩ => .ub

/-- Common/Expected.hpp 128-141 `operator=(const Me &)`: `destroy()`, then the handler matching the source calls
`operator=(value)`. -/
def assignCopy (s : St V) (i j : Nat) : Res (St V) :=
  match s.vars i with
  | none => .ub
  | some x => match destroy x s.log with
    | .ok log => match read { s with log := log } j with
      | .ok none => .ok { s with log := log }
      | .ok (some c) => assignValue { s with log := .used c.obj :: log } i c.err c.val
      | .ub => .ub
      | .loop => .loop
    | .ub => .ub
    | .loop => .loop

/-- The tail of the non-const handlers (205-206, 232-233): the value may have been moved out, the state becomes
UNKNOWN, no destructor runs. -/
def release (moved : V → V) (s : St V) (j : Nat) (takes : Bool) : St V :=
  match s.vars j with
  | some ⟨_, some c⟩ =>
    { s with vars := upd s.vars j (some ⟨none, some { c with val := if takes then moved c.val else c.val }⟩) }
  | _ => s

/-- Common/Expected.hpp 143-155 `operator=(Me &&)`: the handlers of the source call `operator=(value &&)` and reset
the source's state.  For `i = j` the target's `destroy()` has already destroyed the value moved from. -/
def assignMove (moved : V → V) (s : St V) (i j : Nat) : Res (St V) :=
  match read s j with
  | .ok none => match s.vars i with
    | none => .ub
    | some _ => .ok s
  | .ok (some c) =>
    if i = j then .ub
    else match assignValue { s with log := .used c.obj :: s.log } i c.err c.val with
      | .ok s => .ok (release moved s j true)
      | .ub => .ub
      | .loop => .loop
  | .ub => .ub
  | .loop => .loop

/-- A handler: `err = false` for `ifResult`, `true` for `ifError`; `takes`: it moves the value out. -/
structure Handler where
  err : Bool
  takes : Bool
  deriving DecidableEq

/-- Non-const `ifResult` / `ifError` (197-209, 224-236). -/
def handle (moved : V → V) (s : St V) (i : Nat) (h : Handler) : Res (St V × List (Bool × V)) :=
  match read s i with
  | .ok none => .ok (s, [])
  | .ok (some c) =>
    if c.err = h.err then .ok (release moved { s with log := .used c.obj :: s.log } i h.takes, [(h.err, c.val)])
    else .ok (s, [])
  | .ub => .ub
  | .loop => .loop

/-- Const `ifResult` / `ifError` (211-222, 238-249). -/
def handleConst (s : St V) (i : Nat) (h : Handler) : Res (St V × List (Bool × V)) :=
  match read s i with
  | .ok none => .ok (s, [])
  | .ok (some c) =>
    if c.err = h.err then .ok ({ s with log := .used c.obj :: s.log }, [(h.err, c.val)]) else .ok (s, [])
  | .ub => .ub
  | .loop => .loop

/-- A chain of handlers. -/
def chain (f : St V → Handler → Res (St V × List (Bool × V))) (s : St V) : List Handler → Res (St V × List (Bool × V))
  | [] => .ok (s, [])
  | h :: hs => match f s h with
    | .ok (s, c) => match chain f s hs with
      | .ok (s, cs) => .ok (s, c ++ cs)
      | .ub => .ub
      | .loop => .loop
    | .ub => .ub
    | .loop => .loop

inductive Op (V : Type) where
  /-- `Expected()` -/
  | declare (i : Nat)
  /-- construction from a result (`false`) or an error (`true`) -/
  | ctor (i : Nat) (k : Bool) (v : V)
  | copyCtor (i j : Nat)
  | moveCtor (i j : Nat)
  /-- assignment of a value -/
  | set (i : Nat) (k : Bool) (v : V)
  | assign (i j : Nat)
  | moveAssign (i j : Nat)
  /-- a chain of handlers on a non-const object -/
  | handlers (i : Nat) (hs : List Handler)
  /-- a chain of handlers on a const object -/
  | handlersConst (i : Nat) (hs : List Handler)
  /-- destructor -/
  | drop (i : Nat)
  deriving DecidableEq

/-- One operation.  Naming a variable that does not exist (or creating one that does) is no C++ program: `ub`. -/
def step (moved : V → V) (s : St V) : Op V → Res (St V)
  | .declare i => match s.vars i with
    | none => .ok { s with vars := upd s.vars i (some fresh) }
    | some _ => .ub
  -- 98-120
  | .ctor i k v => match s.vars i with
    | none => assignValue { s with vars := upd s.vars i (some fresh) } i k v
    | some _ => .ub
  -- 86-90
  | .copyCtor i j => match s.vars i, s.vars j with
    | none, some _ => assignCopy { s with vars := upd s.vars i (some fresh) } i j
    | _, _ => .ub
  -- 92-96
  | .moveCtor i j => match s.vars i, s.vars j with
    | none, some _ => assignMove moved { s with vars := upd s.vars i (some fresh) } i j
    | _, _ => .ub
  | .set i k v => assignValue s i k v
  | .assign i j => assignCopy s i j
  | .moveAssign i j => assignMove moved s i j
  | .handlers i hs => match chain (fun s h => handle moved s i h) s hs with
    | .ok (s, _) => .ok s
    | .ub => .ub
    | .loop => .loop
  | .handlersConst i hs => match chain (fun s h => handleConst s i h) s hs with
    | .ok (s, _) => .ok s
    | .ub => .ub
    | .loop => .loop
  -- 122-126
  | .drop i => match s.vars i with
    | none => .ub
    | some x => match destroy x s.log with
      | .ok log => .ok { s with vars := upd s.vars i none, log := log }
      | .ub => .ub
      | .loop => .loop

/-- The object a variable is responsible for. -/
def owner (s : St V) (i : Nat) : Option Nat := match s.vars i with
  | some ⟨some _, some c⟩ => some c.obj
  | _ => none

/-! ## Specification -/

/-- `none`: no variable; `some none`: nothing stored; `some (some (false, r))` a result; `some (some (true, e))` an
error. -/
abbrev Abs (V : Type) := Nat → Option (Option (Bool × V))

/-- The value is handed to the first matching handler of a chain on a non-const object. -/
def anyMatch (o : Option (Bool × V)) (hs : List Handler) : Bool := match o with
  | some p => hs.any fun h => h.err == p.1
  | none => false

/-- Moving, and being handled as non-const, uses the stored value up (the state becomes UNKNOWN). -/
def spec (a : Abs V) : Op V → Abs V
  | .declare i => upd a i (some none)
  | .ctor i k v | .set i k v => upd a i (some (some (k, v)))
  | .copyCtor i j | .assign i j => upd a i (a j)
  | .moveCtor i j => upd (upd a i (a j)) j (some none)
  | .moveAssign i j => match a j with
    | some (some _) => upd (upd a i (a j)) j (some none)
    | _ => a
  | .handlers i hs => match a i with
    | some o => if anyMatch o hs then upd a i (some none) else a
    | none => a
  | .handlersConst _ _ => a
  | .drop i => upd a i none

def holds (x : Var V) : Option (Bool × V) := match x with
  | ⟨some k, some c⟩ => some (k, c.val)
  | _ => none

def contents (s : St V) : Abs V := fun i => (s.vars i).map holds

/-- Variables are declared before use and only once. -/
def declared (s : St V) : Op V → Prop
  | .declare i | .ctor i _ _ => s.vars i = none
  | .copyCtor i j | .moveCtor i j => s.vars i = none ∧ s.vars j ≠ none
  | .assign i j | .moveAssign i j => s.vars i ≠ none ∧ s.vars j ≠ none
  | .set i _ _ | .handlers i _ | .handlersConst i _ | .drop i => s.vars i ≠ none

/-- Is a value stored? -/
def isSet (s : St V) (i : Nat) : Bool := match s.vars i with
  | some ⟨some _, _⟩ => true
  | _ => false

/-- What avoids undefined behaviour: no copy assignment to an object that holds a value, no self-move of an object
that holds a value. -/
def safe (s : St V) (o : Op V) : Prop := declared s o ∧ match o with
  | .assign i _ => isSet s i = false
  | .moveAssign i j => i ≠ j ∨ isSet s i = false
  | _ => True

/-- What in addition avoids leaks: nothing is moved from, and non-const handlers do not match. -/
def tidy (s : St V) (o : Op V) : Prop := safe s o ∧ match o with
  | .moveCtor _ j | .moveAssign _ j => isSet s j = false
  | .handlers i hs => isSet s i = false ∨ hs = []
  | _ => True

instance [DecidableEq V] (s : St V) (o : Op V) : Decidable (declared s o) := by
  cases o <;> unfold declared <;> infer_instance

instance [DecidableEq V] (s : St V) (o : Op V) : Decidable (safe s o) := by
  cases o <;> unfold safe <;> simp only <;> infer_instance

instance [DecidableEq V] (s : St V) (o : Op V) : Decidable (tidy s o) := by
  cases o <;> unfold tidy <;> simp only <;> infer_instance

end Flame.Life.ExpectedCom
