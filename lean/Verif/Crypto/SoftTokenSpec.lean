import Verif.Crypto.SoftToken

/-! # What PKCS#11 asks of a module's general functions -/

namespace Flame.Soft
open Flame.Pkcs11 (Rv OK)

/-- What PKCS#11 asks of a module whose initialised flag is `on` and which has one interface, "PKCS 11": the return code and the next
flag. -/
def specRv (on : Bool) : Call → Rv × Bool
  -- null arguments are allowed: no threads
  | .start _ => if on then (Flame.Pkcs11.ALREADY_INITIALIZED, true) else (OK, true)
  | .finalize => if on then (OK, false) else (Flame.Pkcs11.NOT_INITIALIZED, false)
  | .getInfo out => (if on then (if out then OK else ARGUMENTS_BAD) else Flame.Pkcs11.NOT_INITIALIZED, on)
  | .getFunctionList out => (if out then OK else ARGUMENTS_BAD, on)
  | .getInterfaceList _ none => (ARGUMENTS_BAD, on)
  | .getInterfaceList none (some _) => (OK, on)
  | .getInterfaceList (some _) (some n) => (if n = 0 then BUFFER_TOO_SMALL else OK, on)
  -- null asks for the default interface
  | .getInterface none => (OK, on)
  | .getInterface (some name) => (if name = [80, 75, 67, 83, 32, 49, 49] then OK else ARGUMENTS_BAD, on)
  | .getSlotList _ n => (if on then (if n.isSome then OK else ARGUMENTS_BAD) else Flame.Pkcs11.NOT_INITIALIZED, on)

def specRvs (on : Bool) : List Call → List Rv
  | [] => []
  | a :: as => (specRv on a).1 :: specRvs (specRv on a).2 as

/-- Calls a careful client makes: initialise once with arguments, ask only in between, pass pointers, provide an array for at least one interface as
large as announced, and never ask for an interface by name. -/
def polite (on : Bool) : Call → Prop
  | .start args => on = false ∧ args.isSome
  | .finalize => on = true
  | .getInfo _ => on = true
  | .getFunctionList out => out = true
  | .getInterfaceList (some is) (some n) => n ≠ 0 ∧ is.length = n
  | .getInterfaceList _ _ => True
  | .getInterface _ => False
  | .getSlotList _ n => on = true ∧ n.isSome

/-- A polite history. -/
def Polite (on : Bool) : List Call → Prop
  | [] => True
  | a :: as => polite on a ∧ Polite (specRv on a).2 as

/-- A text field as PKCS#11 wants it: padded with blanks, no terminator. -/
def BlankPadded (n : Nat) (text field : List Nat) : Prop := field = text ++ List.replicate (n - text.length) 32

end Flame.Soft
