import Verif.Own.Spec

/-!
# `UniquePointer` (include/FlameIDE/Templates/Pointers.hpp 231-283, 463-583)

A program state: the live `UniquePointer` variables, the number of objects constructed so far and the event log.
An object is identified by the order of its construction.  The pointer variable holds the identity of its
object or null.  Construction may fail to obtain memory (`ObjectAllocator::construct`,
Allocator/ObjectAllocator.hpp 78-89, returns null and constructs nothing).

Not modelled: the stored allocator (a stateless `ObjectAllocator`), the contents of the object.
-/

namespace Flame.Own.Unique

structure St where
  /-- live variables: `some none` is a null pointer, `some (some r)` points at object `r` -/
  vars : Nat → Option (Option Nat)
  /-- objects constructed so far -/
  next : Nat
  log : List Ev

def init : St := ⟨fun _ => none, 0, []⟩

inductive Op where
  /-- `UniquePointer(args...)`; the flag says whether the allocation succeeds -/
  | create (i : Nat) (alloc : Bool)
  /-- `UniquePointer::makeEmpty()` -/
  | createEmpty (i : Nat)
  /-- move constructor: `i` from `j` -/
  | moveCtor (i j : Nat)
  /-- move assignment `i = move(j)` -/
  | moveAssign (i j : Nat)
  /-- `clean()` -/
  | clean (i : Nat)
  /-- destructor -/
  | drop (i : Nat)
  /-- `*p`, `p->` -/
  | deref (i : Nat)
  deriving DecidableEq, Repr

/-- Pointers.hpp 539-547 `clean` on the pointer value `p`: destroys the object of a non-null pointer
(`ObjectAllocator::destroy`, ObjectAllocator.hpp 117-124) and leaves null.  Destroying an object that does not
exist is undefined. -/
def cleanValue (p : Option Nat) (log : List Ev) : Res (List Ev) :=
  match p with
  | none => .ok log
  | some r => if Live r log then .ok (.closed r :: log) else .ub

/-- One operation.  Naming a variable that does not exist (or creating one that does) is no C++ program: `ub`. -/
def step (s : St) : Op → Res St
  -- 463-468 and 478-488: `object{ allocator.construct(...) }`
  | .create i alloc => match s.vars i with
    | some _ => .ub
    | none =>
      if alloc then .ok { vars := upd s.vars i (some (some s.next)), next := s.next + 1, log := .made s.next :: s.log }
      else .ok { s with vars := upd s.vars i (some none) }
  -- 563-567, 573-575: `Me{ Empty{} }`, the member initializer leaves `object = nullptr` (282)
  | .createEmpty i => match s.vars i with
    | some _ => .ub
    | none => .ok { s with vars := upd s.vars i (some none) }
  -- 470-476
  | .moveCtor i j => match s.vars i, s.vars j with
    | none, some p => .ok { s with vars := upd (upd s.vars i (some p)) j (some none) }
    | _, _ => .ub
  -- 490-501: `clean()`, then take the pointer of the source as it is now, then null the source
  | .moveAssign i j => match s.vars i, s.vars j with
    | some p, some _ => match cleanValue p s.log with
      | .ok log =>
        let vars := upd s.vars i (some none)
        match vars j with
        | some q => .ok { s with vars := upd (upd vars i (some q)) j (some none), log := log }
        | none => .ub
      | .ub => .ub
      | .loop => .loop
    | _, _ => .ub
  -- 539-547
  | .clean i => match s.vars i with
    | some p => match cleanValue p s.log with
      | .ok log => .ok { s with vars := upd s.vars i (some none), log := log }
      | .ub => .ub
      | .loop => .loop
    | none => .ub
  -- 503-507
  | .drop i => match s.vars i with
    | some p => match cleanValue p s.log with
      | .ok log => .ok { s with vars := upd s.vars i none, log := log }
      | .ub => .ub
      | .loop => .loop
    | none => .ub
  -- 509-531
  | .deref i => match s.vars i with
    | some (some r) => if Live r s.log then .ok { s with log := .used r :: s.log } else .ub
    | _ => .ub

/-- What the caller must ensure: variables are declared before use and only once, null is not dereferenced. -/
def pre (s : St) : Op → Prop
  | .create i _ | .createEmpty i => s.vars i = none
  | .moveCtor i j => s.vars i = none ∧ s.vars j ≠ none
  | .moveAssign i j => s.vars i ≠ none ∧ s.vars j ≠ none
  | .clean i | .drop i => s.vars i ≠ none
  | .deref i => (s.vars i).join ≠ none

instance (s : St) (o : Op) : Decidable (pre s o) := by
  cases o <;> unfold pre <;> infer_instance

/-- The object a variable is responsible for. -/
def owner (s : St) (i : Nat) : Option Nat := (s.vars i).join

end Flame.Own.Unique
