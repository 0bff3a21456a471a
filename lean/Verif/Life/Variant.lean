import Verif.Own.Spec

/-!
# `Variant` (include/FlameIDE/Templates/Variant.hpp)

A program state: the live `Variant<Ts...>` variables (all of one instantiation), the number of value objects
constructed so far, and the event log of their lifetimes (`Own.Ev`: `made` = constructor of a stored value,
`closed` = its destructor, `used` = it is read).

* An alternative type is a number; `ts` is the parameter pack.
* The nested unions (65-74) are one storage cell: alternative `k` is the member `pack.….pack.arg` with `k` times
  `pack`.  `mem` is what the last placement new left in that storage; it stays there after the destructor runs.
* `moved v` is what the value type's move constructor leaves behind in its source.

Using a member of the union that is not the constructed one, or whose destructor already ran, is undefined (`ub`).
Argument objects of `set` and of the converting constructors live outside the model (their value is the
argument), except in `setFrom`, where the argument refers to the value stored inside a variant.
-/

namespace Flame.Life.Variant
open Flame.Own

variable {V : Type}

/-- A constructed value: identity, position of its type in the pack, value. -/
structure Cell (V : Type) where
  obj : Nat
  ty : Nat
  val : V
  deriving DecidableEq

/-- `currentIndex` (259) and the storage (258). -/
structure Var (V : Type) where
  index : Int
  mem : Option (Cell V)
  deriving DecidableEq

structure St (V : Type) where
  vars : Nat → Option (Var V)
  next : Nat
  log : List Ev

def init : St V := ⟨fun _ => none, 0, []⟩

/-- `VariantStruct::set` (286-296, 371-381, 383-428): position of the first alternative equal to the argument
type, −1 if there is none. -/
def setIndex : List Nat → Nat → Int
  | [], _ => -1
  | a :: as, t => if t = a then 0 else
      let r := setIndex as t
      if r < 0 then r else r + 1

/-- `GetIndexOfType` (Common/Traits/Functional.hpp 239-262). -/
def typeIndex : List Nat → Nat → Int
  | [], _ => -1
  | a :: as, t => if t = a then 0 else if typeIndex as t < 0 then typeIndex as t else 1 + typeIndex as t

/-- The union member reached by `assign`, `reset` and `equal` for a run-time index (299-355; the empty pack does
nothing and reports `false`, 94-112). -/
def level : List Nat → Int → Option Nat
  | [], _ => none
  | _ :: as, n => if n = 0 then some 0 else (level as (n - 1)).map (· + 1)

/-- `VariantStruct::get<T>` (271-284, 357-369, 400-442): the member of type `T`, or null. -/
def member : List Nat → Nat → Option Nat
  | [], _ => none
  | a :: as, t => if t = a then some 0 else (member as t).map (· + 1)

/-- Destructor of member `k` (335). -/
def destroyMember (x : Var V) (k : Nat) (log : List Ev) : Res (List Ev) :=
  match x.mem with
  | some c => if c.ty = k ∧ Live c.obj log then .ok (.closed c.obj :: log) else .ub
  | none => .ub

/-- Variant.hpp 540-548 `reset`. -/
def resetVar (ts : List Nat) (s : St V) (i : Nat) (x : Var V) : Res (St V) :=
  if 0 ≤ x.index then
    match level ts x.index with
    | some k => match destroyMember x k s.log with
      | .ok log => .ok { s with vars := upd s.vars i (some { x with index := -1 }), log := log }
      | .ub => .ub
      | .loop => .loop
    | none => .ok { s with vars := upd s.vars i (some { x with index := -1 }) }
  else .ok s

/-- Read member `k` of variable `j` (305, 320, 388). -/
def readMember (s : St V) (j k : Nat) : Res (Cell V) :=
  match s.vars j with
  | some ⟨_, some c⟩ => if c.ty = k ∧ Live c.obj s.log then .ok c else .ub
  | _ => .ub

/-- Placement new of member `k` and update of `currentIndex`. -/
def build (s : St V) (i k : Nat) (v : V) (index : Int) : St V :=
  { vars := upd s.vars i (some ⟨index, some ⟨s.next, k, v⟩⟩), next := s.next + 1, log := .made s.next :: s.log }

/-- Only `currentIndex` changes. -/
def setIdx (s : St V) (i : Nat) (index : Int) : Res (St V) :=
  match s.vars i with
  | some x => .ok { s with vars := upd s.vars i (some { x with index := index }) }
  | none => .ub

/-- The value left in the source of a move. -/
def takeFrom (moved : V → V) (s : St V) (j : Nat) : St V :=
  match s.vars j with
  | some ⟨n, some c⟩ => { s with vars := upd s.vars j (some ⟨n, some { c with val := moved c.val }⟩) }
  | _ => s

/-- `value.assign(n, other.value); currentIndex = n` (453-454, 460-461, 494-495, 506-507; 299-327). -/
def assignInto (ts : List Nat) (moved : V → V) (s : St V) (i j : Nat) (n : Int) (mv : Bool) : Res (St V) :=
  match level ts n with
  | none => setIdx s i n
  | some k => match readMember s j k with
    | .ok c =>
      let s := build { s with log := .used c.obj :: s.log } i k c.val n
      .ok (if mv then takeFrom moved s j else s)
    | .ub => .ub
    | .loop => .loop

/-- `currentIndex = value.set(object)` (226, 230, 575, 583). -/
def setInto (ts : List Nat) (s : St V) (i t : Nat) (v : V) : Res (St V) :=
  let n := setIndex ts t
  if n < 0 then setIdx s i n else .ok (build s i n.toNat v n)

inductive Op (V : Type) where
  /-- `Variant()` -/
  | declare (i : Nat)
  /-- `Variant(value)` with a value of type `t` -/
  | ctor (i t : Nat) (v : V)
  /-- `Variant i(j)` where `j` is a const variant -/
  | copyConst (i j : Nat)
  /-- `Variant i(j)` where `j` is an ordinary (non-const) variant -/
  | copyVar (i j : Nat)
  /-- `Variant i(move(j))` -/
  | moveCtor (i j : Nat)
  /-- `i.set(value)` -/
  | set (i t : Nat) (v : V)
  /-- `i.set(*j.get<T>())` with `T` the type stored in `j`, by const reference -/
  | setFrom (i j : Nat)
  /-- `i = j` -/
  | assign (i j : Nat)
  /-- `i = move(j)` -/
  | moveAssign (i j : Nat)
  /-- `i.reset()` -/
  | reset (i : Nat)
  /-- read through `i.get<T>()` if it is not null -/
  | useType (i t : Nat)
  /-- read through `i.get<k>()` (non-const) if it is not null -/
  | useIndex (i k : Nat)
  /-- destructor -/
  | drop (i : Nat)
  deriving DecidableEq

/-- A variable that has just begun its life, before the constructor body.  The member initializer (259) actually
gives the least `ssize_t`, which the constructors keep when their source holds nothing; any negative number means
the same to every function, so −1 stands for it. -/
def fresh : Var V := ⟨-1, none⟩

/-- Variant.hpp 593-621 `get<T>()`: the member a non-null result points to. -/
def getType (ts : List Nat) (x : Var V) (t : Nat) : Option Nat :=
  if typeIndex ts t = x.index ∧ 0 ≤ x.index then member ts t else none

/-- Variant.hpp 550-555 `get<INDEX>()`: no check at all. -/
def getIndex (ts : List Nat) (k : Nat) : Option Nat := match ts[k]? with
  | some t => member ts t
  | none => none

/-- One operation.  Naming a variable that does not exist (or creating one that does) is no C++ program: `ub`. -/
def step (ts : List Nat) (moved : V → V) (s : St V) : Op V → Res (St V)
  -- 446-448
  | .declare i => match s.vars i with
    | none => .ok { s with vars := upd s.vars i (some fresh) }
    | some _ => .ub
  -- 464-480 with 221-232
  | .ctor i t v => match s.vars i with
    | none => setInto ts { s with vars := upd s.vars i (some fresh) } i t v
    | some _ => .ub
  -- 450-455
  | .copyConst i j => match s.vars i, s.vars j with
    | none, some y => assignInto ts moved { s with vars := upd s.vars i (some fresh) } i j y.index false
    | _, _ => .ub
  -- overload resolution prefers the template `Variant(T &&)` with `T = Variant &` (173-177, 473-480) over
  -- `Variant(const Me &)`; `InitStruct<_, true>::execMove` (245-252) then moves
  | .copyVar i j => match s.vars i, s.vars j with
    | none, some y =>
      if 0 ≤ y.index then assignInto ts moved { s with vars := upd s.vars i (some fresh) } i j y.index true
      else .ok { s with vars := upd s.vars i (some fresh) }
    | _, _ => .ub
  -- 457-462
  | .moveCtor i j => match s.vars i, s.vars j with
    | none, some y => assignInto ts moved { s with vars := upd s.vars i (some fresh) } i j y.index true
    | _, _ => .ub
  -- 571-585
  | .set i t v => match s.vars i with
    | some x => match resetVar ts s i x with
      | .ok s => setInto ts s i t v
      | .ub => .ub
      | .loop => .loop
    | none => .ub
  -- 579-585: `reset()` runs before the argument is read
  | .setFrom i j => match s.vars i, s.vars j with
    | some x, some y => match y.mem with
      | some c => match resetVar ts s i x with
        | .ok s => match readMember s j c.ty with
          | .ok c => setInto ts { s with log := .used c.obj :: s.log } i (ts.getD c.ty 0) c.val
          | .ub => .ub
          | .loop => .loop
        | .ub => .ub
        | .loop => .loop
      | none => .ub
    | _, _ => .ub
  -- 488-498
  | .assign i j => match s.vars i, s.vars j with
    | some x, some y =>
      if i ≠ j ∧ 0 ≤ y.index then match resetVar ts s i x with
        | .ok s => assignInto ts moved s i j y.index false
        | .ub => .ub
        | .loop => .loop
      else .ok s
    | _, _ => .ub
  -- 500-510
  | .moveAssign i j => match s.vars i, s.vars j with
    | some x, some y =>
      if i ≠ j ∧ 0 ≤ y.index then match resetVar ts s i x with
        | .ok s => assignInto ts moved s i j y.index true
        | .ub => .ub
        | .loop => .loop
      else .ok s
    | _, _ => .ub
  -- 540-548
  | .reset i => match s.vars i with
    | some x => resetVar ts s i x
    | none => .ub
  | .useType i t => match s.vars i with
    | some x => match getType ts x t with
      | some k => match readMember s i k with
        | .ok c => .ok { s with log := .used c.obj :: s.log }
        | .ub => .ub
        | .loop => .loop
      | none => .ok s
    | none => .ub
  | .useIndex i k => match s.vars i with
    | some _ => match getIndex ts k with
      | some k => match readMember s i k with
        | .ok c => .ok { s with log := .used c.obj :: s.log }
        | .ub => .ub
        | .loop => .loop
      | none => .ok s
    | none => .ub
  -- 482-486
  | .drop i => match s.vars i with
    | some x => match resetVar ts s i x with
      | .ok s => .ok { s with vars := upd s.vars i none }
      | .ub => .ub
      | .loop => .loop
    | none => .ub

/-- Variant.hpp 512-520 `operator==`: `eq` compares two values of the same alternative. -/
def equal (ts : List Nat) (eq : V → V → Bool) (x y : Var V) : Bool :=
  if 0 ≤ x.index ∧ 0 ≤ y.index ∧ x.index = y.index then
    match level ts x.index, x.mem, y.mem with
    | some _, some c, some d => eq c.val d.val
    | _, _, _ => false
  else false

/-- The object a variable is responsible for. -/
def owner (s : St V) (i : Nat) : Option Nat := match s.vars i with
  | some x => if 0 ≤ x.index then x.mem.map Cell.obj else none
  | none => none

/-! ## Specification: what a variant holds -/

/-- `none`: no such variable; `some none`: holds nothing; `some (some (t, v))`: holds `v` of type `t`. -/
abbrev Abs (V : Type) := Nat → Option (Option (Nat × V))

/-- The meaning of the operations on contents, read off the class's interface. -/
def spec (ts : List Nat) (moved : V → V) (a : Abs V) : Op V → Abs V
  | .declare i => upd a i (some none)
  | .ctor i t v | .set i t v => upd a i (some (if t ∈ ts then some (t, v) else none))
  | .copyConst i j | .copyVar i j | .setFrom i j | .assign i j => upd a i (a j)
  | .moveCtor i j | .moveAssign i j =>
    if i = j then a else upd (upd a i (a j)) j ((a j).map (Option.map fun p => (p.1, moved p.2)))
  | .reset i => upd a i (some none)
  | .useType _ _ | .useIndex _ _ => a
  | .drop i => upd a i none

/-- What a variable holds: the type named by `currentIndex` and the value in the storage. -/
def holds (ts : List Nat) (x : Var V) : Option (Nat × V) :=
  if 0 ≤ x.index then
    match x.mem, ts[x.index.toNat]? with
    | some c, some t => some (t, c.val)
    | _, _ => none
  else none

/-- What the variables hold in a program state. -/
def contents (ts : List Nat) (s : St V) : Abs V := fun i => (s.vars i).map (holds ts)

/-- What every caller must ensure: variables are declared before use and only once. -/
def declared (s : St V) : Op V → Prop
  | .declare i | .ctor i _ _ => s.vars i = none
  | .copyConst i j | .copyVar i j | .moveCtor i j => s.vars i = none ∧ s.vars j ≠ none
  | .setFrom i j | .assign i j | .moveAssign i j => s.vars i ≠ none ∧ s.vars j ≠ none
  | .set i _ _ | .reset i | .useType i _ | .useIndex i _ | .drop i => s.vars i ≠ none

/-- The index of a variable, −1 if there is none. -/
def indexOf (s : St V) (i : Nat) : Int := match s.vars i with
  | some x => x.index
  | none => -1

/-- What keeps lifetimes in order: a variant's own value is not passed to its `set`, the argument value exists,
and `get<k>()` is used only when alternative `k` is current. -/
def safe (s : St V) (o : Op V) : Prop := declared s o ∧ match o with
  | .setFrom i j => i ≠ j ∧ 0 ≤ indexOf s j
  | .useIndex i k => indexOf s i = k
  | _ => True

/-- What in addition keeps contents as specified: no copy from a non-const variant, no assignment from a variant
that holds nothing. -/
def careful (s : St V) (o : Op V) : Prop := safe s o ∧ match o with
  | .copyVar _ j => indexOf s j < 0
  | .assign i j | .moveAssign i j => i = j ∨ 0 ≤ indexOf s j
  | _ => True

instance [DecidableEq V] (s : St V) (o : Op V) : Decidable (declared s o) := by
  cases o <;> unfold declared <;> infer_instance

instance [DecidableEq V] (s : St V) (o : Op V) : Decidable (safe s o) := by
  cases o <;> unfold safe <;> simp only <;> infer_instance

instance [DecidableEq V] (s : St V) (o : Op V) : Decidable (careful s o) := by
  cases o <;> unfold careful <;> simp only <;> infer_instance

end Flame.Life.Variant
