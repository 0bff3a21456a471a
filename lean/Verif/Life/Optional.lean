import Verif.Life.Held

/-!
# `templates::Optional` (include/FlameIDE/Templates/Optional.hpp)

A program state: the live `Optional<T>` variables, the number of value objects constructed so far and the event log
of their lifetimes.

* `fill` is `isFill` (59); `mem` is what the last placement new left in `value.array` (identity, value).
* `moved v` is what `T`'s move constructor / move assignment leaves behind in its source.

Reading, assigning or destroying a value that is not alive is undefined (`ub`).  Values passed in live outside the
model; constructing and assigning a `T` is assumed to copy (or move) its value.
-/

namespace Flame.Life.Optional
open Flame.Own

variable {V : Type}

structure Cell (V : Type) where
  obj : Nat
  val : V
  deriving DecidableEq

structure Var (V : Type) where
  fill : Bool
  mem : Option (Cell V)
  deriving DecidableEq

structure St (V : Type) where
  vars : Nat → Option (Var V)
  next : Nat
  log : List Ev

def init : St V := ⟨fun _ => none, 0, []⟩

/-- Optional.hpp 68-70 `Optional()`. -/
def fresh : Var V := ⟨false, none⟩

/-- Placement new of a `T` in the storage of `i` (77, 87, 96, 105, 126, 147, 164, 180, 219). -/
def place (s : St V) (i : Nat) (fill : Bool) (v : V) : St V :=
  { vars := upd s.vars i (some ⟨fill, some ⟨s.next, v⟩⟩), next := s.next + 1, log := .made s.next :: s.log }

/-- Overwriting the value in the storage of `i` by `T::operator=` (or by moving out of it). -/
def write (s : St V) (i : Nat) (v : V) : Res (St V) :=
  match s.vars i with
  | some ⟨f, some c⟩ =>
    if Live c.obj s.log then
      .ok { s with vars := upd s.vars i (some ⟨f, some ⟨c.obj, v⟩⟩), log := .used c.obj :: s.log }
    else .ub
  | _ => .ub

/-- `get()`, `operator*`, `operator->` (194-214, 236-258): no check of `isFill`.  Using the result needs a live value. -/
def get (s : St V) (j : Nat) : Res (St V × V) :=
  match s.vars j with
  | some ⟨_, some c⟩ => if Live c.obj s.log then .ok ({ s with log := .used c.obj :: s.log }, c.val) else .ub
  | _ => .ub

/-- Optional.hpp 156-185 `operator=(value)`, `set` (222-234). -/
def assignValue (s : St V) (i : Nat) (v : V) : Res (St V) :=
  match s.vars i with
  | none => .ub
  | some x => if x.fill then write s i v else .ok (place s i true v)

/-- Optional.hpp 115-133 `operator=(const Me &)`; on a fresh object also the copy constructor (73-80). -/
def assignCopy (s : St V) (i j : Nat) : Res (St V) :=
  match s.vars j with
  | none => .ub
  | some y =>
    if y.fill then match get s j with
      | .ok (s, v) => assignValue s i v
      | .ub => .ub
      | .loop => .loop
    else match s.vars i with
      | none => .ub
      | some _ => .ok s

/-- Optional.hpp 136-154 `operator=(Me &&)`; on a fresh object also the move constructor (83-90): the source stays
filled with a moved-from value. -/
def assignMove (moved : V → V) (s : St V) (i j : Nat) : Res (St V) :=
  match s.vars j with
  | none => .ub
  | some y =>
    if y.fill then match get s j with
      | .ok (s, v) => match assignValue s i v with
        | .ok s => write s j (moved v)
        | .ub => .ub
        | .loop => .loop
      | .ub => .ub
      | .loop => .loop
    else match s.vars i with
      | none => .ub
      | some _ => .ok s

/-- Optional.hpp 258-266 `unset`. -/
def unset (s : St V) (i : Nat) : Res (St V) :=
  match s.vars i with
  | none => .ub
  | some ⟨false, _⟩ => .ok s
  | some ⟨true, some c⟩ =>
    if Live c.obj s.log then
      .ok { s with vars := upd s.vars i (some ⟨false, some c⟩), log := .closed c.obj :: s.log }
    else .ub
  | some ⟨true, none⟩ => .ub

inductive Op (V : Type) where
  | declare (i : Nat)
  | ctor (i : Nat) (v : V)
  | copyCtor (i j : Nat)
  | moveCtor (i j : Nat)
  | set (i : Nat) (v : V)
  | assign (i j : Nat)
  | moveAssign (i j : Nat)
  /-- `init()`; `v` is what `T`'s default constructor makes -/
  | make (i : Nat) (v : V)
  | unset (i : Nat)
  /-- reading through `get`, `operator*`, `operator->` -/
  | read (i : Nat)
  | drop (i : Nat)
  deriving DecidableEq

/-- One operation.  Naming a variable that does not exist (or creating one that does) is no C++ program: `ub`. -/
def step (moved : V → V) (s : St V) : Op V → Res (St V)
  | .declare i => match s.vars i with
    | none => .ok { s with vars := upd s.vars i (some fresh) }
    | some _ => .ub
  -- 93-108
  | .ctor i v => match s.vars i with
    | none => .ok (place s i true v)
    | some _ => .ub
  | .copyCtor i j => match s.vars i, s.vars j with
    | none, some _ => assignCopy { s with vars := upd s.vars i (some fresh) } i j
    | _, _ => .ub
  | .moveCtor i j => match s.vars i, s.vars j with
    | none, some _ => assignMove moved { s with vars := upd s.vars i (some fresh) } i j
    | _, _ => .ub
  | .set i v => assignValue s i v
  | .assign i j => assignCopy s i j
  | .moveAssign i j => assignMove moved s i j
  -- 216-220: `isFill` is left as it is, a value already there is not destroyed
  | .make i v => match s.vars i with
    | none => .ub
    | some x => .ok (place s i x.fill v)
  | .unset i => unset s i
  | .read i => match get s i with
    | .ok (s, _) => .ok s
    | .ub => .ub
    | .loop => .loop
  -- 110-113
  | .drop i => match unset s i with
    | .ok s => .ok { s with vars := upd s.vars i none }
    | .ub => .ub
    | .loop => .loop

/-- The object a variable is responsible for. -/
def owner (s : St V) (i : Nat) : Option Nat := match s.vars i with
  | some ⟨true, some c⟩ => some c.obj
  | _ => none

/-! ## Specification -/

/-- `none`: no variable; `some none`: empty; `some (some v)`: filled with `v`. -/
abbrev Abs (V : Type) := Nat → Option (Option V)

/-- `a = b` makes `a` what `b` was: filled exactly when `b` is, with an equal value.  Moving leaves a moved-from
value in a filled source. -/
def spec (moved : V → V) (a : Abs V) : Op V → Abs V
  | .declare i => upd a i (some none)
  | .ctor i v | .set i v | .make i v => upd a i (some (some v))
  | .copyCtor i j | .assign i j => upd a i (a j)
  | .moveCtor i j | .moveAssign i j => match a j with
    | some (some v) => upd (upd a i (some (some v))) j (some (some (moved v)))
    | o => upd a i o
  | .unset i => upd a i (some none)
  | .read _ => a
  | .drop i => upd a i none

def holds (x : Var V) : Option V := match x with
  | ⟨true, some c⟩ => some c.val
  | _ => none

def contents (s : St V) : Abs V := fun i => (s.vars i).map holds

def isFill (s : St V) (i : Nat) : Bool := match s.vars i with
  | some x => x.fill
  | none => false

/-- Variables are declared before use and only once; only filled objects are read. -/
def safe (s : St V) : Op V → Prop
  | .declare i | .ctor i _ => s.vars i = none
  | .copyCtor i j | .moveCtor i j => s.vars i = none ∧ s.vars j ≠ none
  | .assign i j | .moveAssign i j => s.vars i ≠ none ∧ s.vars j ≠ none
  | .set i _ | .make i _ | .unset i | .drop i => s.vars i ≠ none
  | .read i => isFill s i = true

/-- … no empty object is assigned to a filled one and `init()` is not called. -/
def careful (s : St V) (o : Op V) : Prop := safe s o ∧ match o with
  | .assign i j | .moveAssign i j => isFill s i = true → isFill s j = true
  | .make _ _ => False
  | _ => True

instance [DecidableEq V] (s : St V) (o : Op V) : Decidable (safe s o) := by
  cases o <;> unfold safe <;> infer_instance

instance [DecidableEq V] (s : St V) (o : Op V) : Decidable (careful s o) := by
  cases o <;> unfold careful <;> simp only <;> infer_instance

end Flame.Life.Optional
