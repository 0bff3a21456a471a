import Verif.Life.Held

/-!
# `templates::Object` (include/FlameIDE/Templates/Object.hpp)

A program state: the live `Object<SIZE>` variables with the addresses of their `data` arrays, the number of value
objects constructed so far and the event log of their lifetimes.

* Types are numbers; `al t` is `alignof(t)`, `sz t` is `sizeof(t)`.
* `cb` is `callbackDestroy` (98): the type whose destructor it runs, or null.
* `mem` is what `data` contains: the stored object, its type, value, and the offset in `data` of the place where it
  was constructed.  Moving copies the bytes (147), so the object moves to the *same offset* of another array.  Types
  are assumed to survive being moved byte by byte.

Destroying or reading at a place where no live object of that type is, is undefined (`ub`).

Not modelled: `move<T>()` (204-210), which calls `get()` without a type and does not compile when used.
-/

namespace Flame.Life.Object
open Flame.Own

variable {V : Type}

/-- Common/Utils.hpp 507-509: the `shift` of `alignedPointer`. -/
def shift (addr a : Nat) : Nat := if addr % a ≠ 0 then a - addr % a else 0

structure Cell (V : Type) where
  obj : Nat
  ty : Nat
  off : Nat
  val : V
  deriving DecidableEq

structure Var (V : Type) where
  addr : Nat
  cb : Option Nat
  mem : Option (Cell V)
  deriving DecidableEq

structure St (V : Type) where
  vars : Nat → Option (Var V)
  next : Nat
  log : List Ev

def init : St V := ⟨fun _ => none, 0, []⟩

/-- Object.hpp 107-109 `Object()`. -/
def fresh (addr : Nat) : Var V := ⟨addr, none, none⟩

/-- `alignedPointer<t>(data)` (196, 204) points at a live object of type `t`. -/
def at' (al : Nat → Nat) (x : Var V) (t : Nat) (log : List Ev) : Option (Cell V) :=
  match x.mem with
  | some c => if c.ty = t ∧ c.off = shift x.addr (al t) ∧ Live c.obj log then some c else none
  | none => none

/-- Object.hpp 212-220 `destroy` with the callback of 222-233; also the destructor (132-138). -/
def destroy (al : Nat → Nat) (x : Var V) (log : List Ev) : Res (List Ev) :=
  match x.cb with
  | none => .ok log
  | some t => match at' al x t log with
    | some c => .ok (.closed c.obj :: log)
    | none => .ub

/-- Construction of the new value at `alignedPointer<t>(data)` and the new callback (162-163, 177-178). -/
def place (al : Nat → Nat) (s : St V) (i addr t : Nat) (v : V) (log : List Ev) : St V :=
  { vars := upd s.vars i (some ⟨addr, some t, some ⟨s.next, t, shift addr (al t), v⟩⟩), next := s.next + 1, log := .made s.next :: log }

/-- Object.hpp 154-181 `operator=(value)`; on a fresh object also the constructors from a value (117-130). -/
def assignValue (al : Nat → Nat) (s : St V) (i t : Nat) (v : V) : Res (St V) :=
  match s.vars i with
  | none => .ub
  | some x => match destroy al x s.log with
    | .ok log => .ok (place al s i x.addr t v log)
    | .ub => .ub
    | .loop => .loop

/-- The byte copy and the change of callbacks (147-149). -/
def transfer (s : St V) (i j : Nat) (x y : Var V) (log : List Ev) : St V :=
  if i = j then { s with vars := upd s.vars i (some ⟨x.addr, none, x.mem⟩), log := log }
  else { s with vars := upd (upd s.vars i (some ⟨x.addr, y.cb, y.mem⟩)) j (some ⟨y.addr, none, y.mem⟩), log := log }

/-- Object.hpp 140-152 `operator=(Me &&)`; on a fresh object also the move constructor (111-115).  For `i = j` the
callback is already null when it is taken over. -/
def assignMove (al : Nat → Nat) (s : St V) (i j : Nat) : Res (St V) :=
  match s.vars i, s.vars j with
  | some x, some y => match destroy al x s.log with
    | .ok log => .ok (transfer s i j x y log)
    | .ub => .ub
    | .loop => .loop
  | _, _ => .ub

/-- Object.hpp 190-204 `get<t>()` and a use of the result: the stored type is not checked. -/
def get (al : Nat → Nat) (s : St V) (i t : Nat) : Res (St V × V) :=
  match s.vars i with
  | none => .ub
  | some x => match at' al x t s.log with
    | some c => .ok ({ s with log := .used c.obj :: s.log }, c.val)
    | none => .ub

inductive Op (V : Type) where
  | declare (i addr : Nat)
  | ctor (i addr t : Nat) (v : V)
  | moveCtor (i addr j : Nat)
  | set (i t : Nat) (v : V)
  | moveAssign (i j : Nat)
  | read (i t : Nat)
  | drop (i : Nat)
  deriving DecidableEq

def step (al : Nat → Nat) (s : St V) : Op V → Res (St V)
  | .declare i addr => match s.vars i with
    | none => .ok { s with vars := upd s.vars i (some (fresh addr)) }
    | some _ => .ub
  | .ctor i addr t v => match s.vars i with
    | none => assignValue al { s with vars := upd s.vars i (some (fresh addr)) } i t v
    | some _ => .ub
  | .moveCtor i addr j => match s.vars i, s.vars j with
    | none, some _ => assignMove al { s with vars := upd s.vars i (some (fresh addr)) } i j
    | _, _ => .ub
  | .set i t v => assignValue al s i t v
  | .moveAssign i j => assignMove al s i j
  | .read i t => match get al s i t with
    | .ok (s, _) => .ok s
    | .ub => .ub
    | .loop => .loop
  | .drop i => match s.vars i with
    | none => .ub
    | some x => match destroy al x s.log with
      | .ok log => .ok { s with vars := upd s.vars i none, log := log }
      | .ub => .ub
      | .loop => .loop

def owner (s : St V) (i : Nat) : Option Nat := match s.vars i with
  | some ⟨_, some _, some c⟩ => some c.obj
  | _ => none

/-- Object.hpp 183-187 `operator bool`. -/
def full (s : St V) (i : Nat) : Bool := match s.vars i with
  | some x => x.cb.isSome
  | none => false

/-! ## Specification -/

/-- `none`: no variable; `some none`: empty; `some (some (t, v))`: the value `v` of type `t`. -/
abbrev Abs (V : Type) := Nat → Option (Option (Nat × V))

def spec (a : Abs V) : Op V → Abs V
  | .declare i _ => upd a i (some none)
  | .ctor i _ t v | .set i t v => upd a i (some (some (t, v)))
  | .moveCtor i _ j | .moveAssign i j => upd (upd a i (a j)) j (some none)
  | .read _ _ => a
  | .drop i => upd a i none

def holds (x : Var V) : Option (Nat × V) := match x with
  | ⟨_, some t, some c⟩ => some (t, c.val)
  | _ => none

def contents (s : St V) : Abs V := fun i => (s.vars i).map holds

/-- Variables are declared before use and only once; a value is read as what it is. -/
def declared (s : St V) : Op V → Prop
  | .declare i _ | .ctor i _ _ _ => s.vars i = none
  | .moveCtor i _ j => s.vars i = none ∧ s.vars j ≠ none
  | .moveAssign i j => s.vars i ≠ none ∧ s.vars j ≠ none
  | .set i _ _ | .drop i => s.vars i ≠ none
  | .read i t => ∃ x, s.vars i = some x ∧ x.cb = some t

/-- A value of `j` lands in a correctly aligned place when moved to an array at `addr`. -/
def fits (al : Nat → Nat) (s : St V) (addr j : Nat) : Prop :=
  match s.vars j with
  | some ⟨b, some t, _⟩ => shift addr (al t) = shift b (al t)
  | _ => True

/-- Values are only moved between arrays in which they have the same offset. -/
def safe (al : Nat → Nat) (s : St V) (o : Op V) : Prop := declared s o ∧ match o with
  | .moveCtor _ addr j => fits al s addr j
  | .moveAssign i j => match s.vars i with
    | some x => fits al s x.addr j
    | none => True
  | _ => True

/-- Every array starts at a multiple of `A` = `alignof(AlignedAsType)`, every stored type needs no more than that
(`alignof` is always a power of two, so "no more" means "divides"). -/
def ordinary (al : Nat → Nat) (A : Nat) (s : St V) (o : Op V) : Prop := declared s o ∧ match o with
  | .declare _ addr | .moveCtor _ addr _ => A ∣ addr
  | .ctor _ addr t _ => A ∣ addr ∧ al t ∣ A
  | .set _ t _ => al t ∣ A
  | _ => True

/-- Object.hpp 68-86 `staticCheck<T>` (A = `alignof(AlignedAsType)`). -/
def staticCheck (SIZE A size align : Nat) : Bool :=
  decide (size ≤ SIZE) && (if A < align then decide (size + align < SIZE) else true)

instance [DecidableEq V] (s : St V) (o : Op V) : Decidable (declared s o) := by
  cases o <;> unfold declared <;> infer_instance

instance (al : Nat → Nat) (s : St V) (addr j : Nat) : Decidable (fits al s addr j) := by
  unfold fits; split <;> infer_instance

instance [DecidableEq V] (al : Nat → Nat) (s : St V) (o : Op V) : Decidable (safe al s o) := by
  cases o <;> unfold safe <;> simp only <;> try infer_instance
  rename_i i j
  cases s.vars i <;> infer_instance

instance [DecidableEq V] (al : Nat → Nat) (A : Nat) (s : St V) (o : Op V) : Decidable (ordinary al A s o) := by
  cases o <;> unfold ordinary <;> simp only <;> infer_instance

end Flame.Life.Object
