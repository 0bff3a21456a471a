import Verif.Own.Spec

/-!
# `CircularVector` (include/FlameIDE/Templates/CircularVector.hpp 442-549)

The functions that have definitions: constructors, destructor, assignments, `size` and `capacity`.  Everything that would add, remove
or visit elements (214-349) is declared only; the iterators' constructor (373-379) does not compile; `operator[]` (509-525) reaches
memory in which nothing was ever constructed.  Blocks of memory are numbered by order of allocation.
-/

namespace Flame.CVec
open Flame.Own

/-- 354-357: a pointer is null or an offset into a block. -/
structure Var where
  array : Option Nat
  head : Option (Nat × Nat)
  tail : Option (Nat × Nat)
  cap : Nat
  deriving DecidableEq, Repr

structure St where
  vars : Nat → Option Var
  next : Nat
  log : List Ev

def start : St := ⟨fun _ => none, 0, []⟩

/-- 442-445. -/
def empty : Var := ⟨none, none, none, 0⟩

/-- 527-534: `tail - head`, converted to an unsigned number; pointers into different blocks are not subtracted. -/
def size (v : Var) : Res Nat := match v.tail, v.head with
  | none, none => .ok 0
  | some (b, t), some (c, h) => if b = c then .ok ((((t : Int) - h) % 2 ^ 64).toNat) else .ub
  | _, _ => .ub

/-- 536-549: `realCapacity() - 1` on unsigned numbers. -/
def capacity (v : Var) : Nat := (v.cap + 2 ^ 64 - 1) % 2 ^ 64

inductive Op where
  | default (i : Nat)
  /-- from a range of `n` elements; `mem`: the allocation succeeds -/
  | range (i n : Nat) (mem : Bool)
  | copy (i j : Nat) (mem : Bool)
  | moveCtor (i j : Nat)
  | assign (i j : Nat)
  | moveAssign (i j : Nat)
  | drop (i : Nat)
  deriving DecidableEq, Repr

/-- 451-453, 470-473: `createArray(n + 1)`, `head = tail = array`. -/
def alloc (s : St) (i n : Nat) (mem : Bool) : St :=
  if mem then { vars := upd s.vars i (some ⟨some s.next, some (s.next, 0), some (s.next, 0), (n + 1) % 2 ^ 64⟩), next := s.next + 1, log := .made s.next :: s.log }
  else { s with vars := upd s.vars i (some ⟨none, none, none, (n + 1) % 2 ^ 64⟩) }

def step (s : St) : Op → Res St
  | .default i => match s.vars i with
    | none => .ok { s with vars := upd s.vars i (some empty) }
    | some _ => .ub
  -- 464-474: the elements are counted but not copied
  | .range i n mem => match s.vars i with
    | none => .ok (alloc s i n mem)
    | some _ => .ub
  -- 447-454
  | .copy i j mem => match s.vars i, s.vars j with
    | none, some v => match size v with
      | .ok n => .ok (alloc s i n mem)
      | .ub => .ub
      | .loop => .loop
    | _, _ => .ub
  -- 456-462
  | .moveCtor i j => match s.vars i, s.vars j with
    | none, some v => .ok { s with vars := upd (upd s.vars i (some v)) j (some ⟨none, none, none, 0⟩) }
    | _, _ => .ub
  -- 488-506: no `return`
  | .assign _ _ => .ub
  | .moveAssign _ _ => .ub
  -- 476-486: `freeArray` (null is ignored); nothing is destroyed
  | .drop i => match s.vars i with
    | some v => match v.array with
      | none => .ok { s with vars := upd s.vars i none }
      | some r => if Live r s.log then .ok { s with vars := upd s.vars i none, log := .closed r :: s.log } else .ub
    | none => .ub

/-- Variables are declared once and before use, and are not assigned to. -/
def careful (s : St) : Op → Prop
  | .default i => s.vars i = none
  | .range i _ _ => s.vars i = none
  | .copy i j _ => s.vars i = none ∧ s.vars j ≠ none
  | .moveCtor i j => s.vars i = none ∧ s.vars j ≠ none
  | .assign _ _ => False
  | .moveAssign _ _ => False
  | .drop i => s.vars i ≠ none

instance (s : St) (o : Op) : Decidable (careful s o) := by cases o <;> unfold careful <;> infer_instance

/-- The block variable `i` is responsible for. -/
def owner (s : St) (i : Nat) : Option Nat := (s.vars i).bind Var.array

end Flame.CVec
