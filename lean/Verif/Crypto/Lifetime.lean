import Verif.Own.SharedProps

/-!
# Who keeps a PKCS#11 module initialised — src/Crypto/Pkcs11/Pkcs11.cpp 14-36, src/Crypto/Pkcs11/Slot.cpp 12-29

Programs reach a `Pkcs11Library` and its `Slot`s only through `SharedPointer`s (the constructors are private); a slot holds one to its library.  The
destructor of the library finalises the module (Pkcs11.cpp 18-21, C82).  Both families of pointers are `Own.Shared`: `libs` holds the pointers to
libraries, the program's variables as well as the members of slots, `slots` the pointers to slots; `mem` gives for each slot object the place of
its member in `libs`.

`Slot::create(library, id)` takes its argument by value.  With a named non-const pointer that does not compile (the variadic constructor of
`SharedPointer` is chosen, see `Own.Named`), so the argument is moved, or copied from a const pointer.
-/

namespace Flame.Pkcs11.Life
open Own

structure St where
  libs : Shared.St
  slots : Shared.St
  mem : List Nat

def start : St := ⟨Shared.init, Shared.init, []⟩

inductive Op where
  /-- an operation on the program's pointers to libraries; `create` is `Pkcs11Library::create`, `deref` the call of a member function -/
  | lib (o : Shared.Op)
  /-- an operation on the pointers to slots; `deref` is a call that does not need the library (`getSlotId`) -/
  | slot (o : Shared.Op)
  /-- `Slot::create(library, id)`: the pointer `v` moved or copied, memory for the slot or not -/
  | makeSlot (v : Nat) (copy alloc : Bool)
  /-- `auto library = slot->getLibrary();` -/
  | look (i : Nat)
  /-- `slot->getSlotInfo()`, `slot->waitForSlotEvent(…)` -/
  | use (i : Nat)
  deriving DecidableEq, Repr

/-- The variables an operation names. -/
def named : Shared.Op → List Nat
  | .copyCtor j | .moveCtor j | .clean j | .drop j | .deref j => [j]
  | .copyAssign i j | .moveAssign i j => [i, j]
  | .defaultCtor | .create _ => []

/-- The object whose destruction is the latest event. -/
def destroyed (before after : Shared.St) : Option Nat :=
  match after.log with
  | .closed q :: l => if l = before.log then some q else none
  | _ => none

/-- The member `library` of the slot behind pointer `i`. -/
def member (s : St) (i : Nat) : Option Nat :=
  match s.slots.vars[i]? with
  | some (.ptr q) => if Live q s.slots.log then s.mem[q]? else none
  | _ => none

/-- Slot.cpp 18-23: the argument `v` becomes the parameter; where it passes through further parameters (12-16, Pointers.hpp 358-363) it is moved and
the emptied one destroyed, which changes nothing. -/
def passed (l : Shared.St) (v : Nat) (copy : Bool) : Res Shared.St := Shared.step l (if copy then .copyCtor v else .moveCtor v)

def step (s : St) : Op → Res St
  | .lib o => match Shared.step s.libs o with
    | .ok l => .ok { s with libs := l }
    | .ub => .ub
    | .loop => .loop
  -- destroying a slot destroys its member
  | .slot o => match Shared.step s.slots o with
    | .ok t => match destroyed s.slots t with
      | some q => match s.mem[q]? with
        | some m => match Shared.step s.libs (.drop m) with
          | .ok l => .ok ⟨l, t, s.mem⟩
          | .ub => .ub
          | .loop => .loop
        | none => .ub
      | none => .ok { s with slots := t }
    | .ub => .ub
    | .loop => .loop
  -- Slot.cpp 12-23
  | .makeSlot v copy true => match passed s.libs v copy, Shared.step s.slots (.create true) with
    | .ok l, .ok t => .ok ⟨l, t, s.mem ++ [s.libs.vars.length]⟩
    | _, _ => .ub
  -- no memory: the parameter is destroyed
  | .makeSlot v copy false => match passed s.libs v copy, Shared.step s.slots (.create false) with
    | .ok l, .ok t => match Shared.step l (.drop s.libs.vars.length) with
      | .ok l' => .ok ⟨l', t, s.mem⟩
      | .ub => .ub
      | .loop => .loop
    | _, _ => .ub
  -- Slot.cpp 25-29: the reference is to const, so this is the copy constructor
  | .look i => match member s i with
    | some m => match Shared.step s.libs (.copyCtor m) with
      | .ok l => .ok { s with libs := l }
      | .ub => .ub
      | .loop => .loop
    | none => .ub
  -- Slot.cpp 39-86: `library->getFunctionList()`
  | .use i => match member s i with
    | some m => match Shared.step s.libs (.deref m) with
      | .ok l => .ok { s with libs := l }
      | .ub => .ub
      | .loop => .loop
    | none => .ub

/-- Programs use pointers between construction and destruction and not when they are null (as in C30); they cannot reach members of slots. -/
def pre (s : St) : Op → Prop
  | .lib o => Shared.pre s.libs o ∧ ∀ v ∈ named o, v ∉ s.mem
  | .slot (.create _) => False
  | .slot o => Shared.pre s.slots o
  | .makeSlot v copy _ => Shared.Has s.libs v ∧ v ∉ s.mem ∧ (copy = true → s.libs.vars[v]? ≠ some .null) ∧ s.libs.vars.length + 1 < Shared.M ∧
      s.slots.vars.length + 1 < Shared.M
  | .look i => Shared.Has s.slots i ∧ s.slots.vars[i]? ≠ some .null ∧ s.libs.vars.length + 1 < Shared.M
  | .use i => Shared.Has s.slots i ∧ s.slots.vars[i]? ≠ some .null

instance (s : St) (o : Op) : Decidable (pre s o) := by
  cases o with
  | slot o => cases o <;> unfold pre <;> infer_instance
  | _ => unfold pre; infer_instance

/-- Specification: the module of library `r` is initialised (its library has not been destroyed). -/
def Up (s : St) (r : Nat) : Prop := .made r ∈ s.libs.log ∧ .closed r ∉ s.libs.log

/-- Specification: how many pointers refer to library `r`: variables of the program and members of slots that exist. -/
def refs (s : St) (r : Nat) : Nat := s.libs.vars.count (.ptr r)

end Flame.Pkcs11.Life
