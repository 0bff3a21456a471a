import Verif.Crypto.Library

/-!
# `Slot` — src/Crypto/Pkcs11/Slot.cpp, include/FlameIDE/Crypto/Pkcs11/Pkcs11.hpp (class Slot)

The slot object holds the library (shared) and an identifier.  The module is a parameter: `info` is its answer to `C_GetSlotInfo` for each
identifier, and each wait comes with the module's return code and the slot in which the event happened.
-/

namespace Flame.Pkcs11

variable {I F T : Type}

/-- Slot.cpp 12-16: members. -/
structure Slot where
  id : Nat
  deriving DecidableEq, Repr

/-- Slot.cpp 18-23: `create`. -/
def Slot.create (id : Nat) : Slot := ⟨id⟩

/-- Slot.cpp 31-35: `getSlotId`. -/
def Slot.getSlotId (s : Slot) : Nat := s.id

/-- Slot.cpp 39-65: `getSlotInfo`.  The error of the module is a named variable when it is assigned. -/
def Slot.getSlotInfo (info : Nat → Rv × T) (l : Lib I F) (s : Slot) : Exp T :=
  (getFunctionList l).visit
    (fun _ => if (info s.id).1 ≠ OK then .assignError (info s.id).1 else .result (info s.id).2)
    (fun e => .assignError e) .nothing

/-- The module's answer to `C_WaitForSlotEvent`: a return code and, if it is OK, the slot of the event, which it writes through the pointer
it was given. -/
structure WaitAnswer where
  rv : Rv
  slot : Nat
  deriving DecidableEq, Repr

/-- Slot.cpp 67-86: `waitForSlotEvent`.  The pointer handed to the module is `&id`, the slot's own identifier. -/
def Slot.waitForSlotEvent (a : WaitAnswer) (l : Lib I F) (s : Slot) : Rv × Slot :=
  (getFunctionList l).visit
    (fun _ => (a.rv, if a.rv = OK then { s with id := a.slot } else s))
    (fun e => (e, s)) (OK, s)

/-- A history of waits: the return codes and the slot object afterwards. -/
def Slot.waits (l : Lib I F) (s : Slot) : List WaitAnswer → List Rv × Slot
  | [] => ([], s)
  | a :: as =>
    let r := s.waitForSlotEvent a l
    let rest := Slot.waits l r.2 as
    (r.1 :: rest.1, rest.2)

end Flame.Pkcs11
