import Verif.Own.SharedProps
import Verif.Ubjson.Table

/-!
# UBJSON values in allocated memory — include/FlameIDE/Ubjson/BaseValue.hpp 92-160

`BaseValue<…, true>` keeps its value behind a `SharedPointer` (model `Own/Shared`).  A program state: the shared pointers that are the members `value` of the
holders declared so far (by position) and the value of every object they denote.

Simplification: the temporary pointer of 104-112, from which `value` is move-constructed, is not shown (C++14 lets it be elided; moving empties it, so its destruction
does nothing).
-/

namespace Flame.Ubjson.Held
open Own

variable {α : Type}

/-- The members `value` (159) of all holders and the objects they denote. -/
structure St (α : Type) where
  sh : Shared.St
  val : Nat → Option α

/-- No holder yet. -/
def start : St α := ⟨Shared.init, fun _ => none⟩

inductive Op (α : Type) where
  /-- 100: `BaseValue v;` -/
  | default
  /-- 100: `BaseValue v{};` — neither constructor is user-provided, so `members` is zeroed first -/
  | empty
  /-- 104-112: from a value; the flag says whether there is memory -/
  | make (mem : Bool) (a : α)
  /-- 101 -/
  | copy (j : Nat)
  /-- 102 -/
  | move (j : Nat)
  /-- 116 -/
  | copyAssign (i j : Nat)
  /-- 117 -/
  | moveAssign (i j : Nat)
  /-- 119-141: assigning a plain value -/
  | assignValue (i : Nat) (a : α)
  /-- 148-151: `getValue() = a` -/
  | write (i : Nat) (a : α)
  /-- 114 -/
  | drop (i : Nat)

/-- The defaulted members 100-102, 114-117 do what `SharedPointer` does. -/
def onShared (s : St α) (o : Shared.Op) : Res (St α) :=
  match Shared.step s.sh o with
  | .ok sh => .ok { s with sh := sh }
  | .ub => .ub
  | .loop => .loop

/-- 148-156: `getValue()`, read: `*value` is `members->object` (Pointers.hpp 397-407). -/
def read (s : St α) (i : Nat) : Res α :=
  match s.sh.vars[i]? with
  | some (.ptr r) => if Live r s.sh.log then
      (match s.val r with
        | some a => .ok a
        | none => .ub)
    else .ub
  | _ => .ub

/-- 143-146: `operator bool()` asks `SharedPointer::operator bool` (Pointers.hpp 421-425), that is `&members->object`: naming the member of no object, or of a
destroyed one, is undefined. -/
def valid (s : St α) (i : Nat) : Res Bool :=
  match s.sh.vars[i]? with
  | some (.ptr r) => if Live r s.sh.log then .ok true else .ub
  | _ => .ub

/-- One statement of the program: 92-160. -/
def step (s : St α) : Op α → Res (St α)
  | .default => onShared s .defaultCtor
  -- `members` is null, as after a failed allocation
  | .empty => onShared s (.create false)
  | .make mem a => match Shared.step s.sh (.create mem) with
    | .ok sh => .ok ⟨sh, if mem then upd s.val s.sh.next (some a) else s.val⟩
    | .ub => .ub
    | .loop => .loop
  | .copy j => onShared s (.copyCtor j)
  | .move j => onShared s (.moveCtor j)
  | .copyAssign i j => onShared s (.copyAssign i j)
  | .moveAssign i j => onShared s (.moveAssign i j)
  -- the function ends without `return`
  | .assignValue _ _ => .ub
  | .write i a => match s.sh.vars[i]? with
    | some (.ptr r) => if Live r s.sh.log then .ok { s with val := upd s.val r (some a) } else .ub
    | _ => .ub
  | .drop i => onShared s (.drop i)

/-- What the caller must ensure: holders are used while they exist; a holder without value (moved from, or made without memory) is not copied or written. -/
def pre (s : St α) : Op α → Prop
  | .default => False
  | .empty => Shared.pre s.sh (.create false)
  | .make mem _ => Shared.pre s.sh (.create mem)
  | .copy j => Shared.pre s.sh (.copyCtor j)
  | .move j => Shared.pre s.sh (.moveCtor j)
  | .copyAssign i j => Shared.pre s.sh (.copyAssign i j)
  | .moveAssign i j => Shared.pre s.sh (.moveAssign i j)
  | .assignValue _ _ => False
  | .write i _ => Shared.pre s.sh (.deref i)
  | .drop i => Shared.pre s.sh (.drop i)

instance (s : St α) (o : Op α) : Decidable (pre s o) := by
  cases o <;> unfold pre <;> infer_instance

/-- The same, without copies. -/
def lone (s : St α) : Op α → Prop
  | .copy _ => False
  | .copyAssign _ _ => False
  | o => pre s o

instance (s : St α) (o : Op α) : Decidable (lone s o) := by
  cases o <;> unfold lone <;> infer_instance

end Flame.Ubjson.Held
