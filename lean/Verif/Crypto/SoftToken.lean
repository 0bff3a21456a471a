import Verif.Crypto.Library

/-!
# The soft token's general functions — src/Crypto/SoftPkcs11/Functions/GeneralPurposeFunctions.cpp, ManagementFunctions.cpp, GlobalContext.cpp

Pointers are `none` (null) or what they point to.  The only state is `GlobalContext` (a static object), whose `status` member is OK from the start
(GlobalContext.hpp 73) and never written.
-/

namespace Flame.Soft
open Flame.Pkcs11 (Rv OK)

def ARGUMENTS_BAD : Rv := 7
def BUFFER_TOO_SMALL : Rv := 0x150

/-- GlobalContext.hpp 64-74, as far as the functions look at it. -/
structure Ctx where
  status : Rv
  deriving DecidableEq, Repr

/-- GlobalContext.cpp 12-14 and 96-100. -/
def Ctx.start : Ctx := ⟨OK⟩

/-- What `C_GetInfo` writes: the two text fields. -/
structure Info where
  manufacturer : List Nat
  description : List Nat
  deriving DecidableEq, Repr

/-- A `char[n]` initialised from a string literal: the rest is zero. -/
def literal (n : Nat) (text : List Nat) : List Nat := text ++ List.replicate (n - text.length) 0

def NONE : List Nat := [78, 79, 78, 69]
def FLAME_SOFT_PKCS11 : List Nat := [70, 108, 97, 109, 101, 32, 83, 111, 102, 116, 32, 80, 75, 67, 83, 35, 49, 49]

/-- GeneralPurposeFunctions.cpp 54-60. -/
def theInfo : Info := ⟨literal 32 NONE, literal 32 FLAME_SOFT_PKCS11⟩

/-- The one interface (GlobalContext.cpp 104-110). -/
inductive Iface where
  | uninitialized
  | pkcs11
  deriving DecidableEq, Repr

/-- Calls of the token; a pointer argument is `none` if null. -/
inductive Call where
  /-- `C_Initialize`; the flags of the arguments -/
  | start (args : Option Nat)
  | finalize
  | getInfo (out : Bool)
  | getFunctionList (out : Bool)
  /-- the array the caller provides and the value of `*count` -/
  | getInterfaceList (interfaces : Option (List Iface)) (count : Option Nat)
  /-- the name, as a C string without its terminator -/
  | getInterface (name : Option (List Nat))
  /-- ManagementFunctions.cpp 12-24; the array and `*count` -/
  | getSlotList (list : Option (List Nat)) (count : Option Nat)
  deriving DecidableEq, Repr

/-- What the caller sees. -/
structure Out where
  rv : Rv
  info : Option Info := none
  functions : Bool := false
  ifaces : Option (List Iface) := none
  slots : Option (List Nat) := none
  count : Option Nat := none
  deriving DecidableEq, Repr

def call (c : Ctx) : Call → Res (Out × Ctx)
  -- GeneralPurposeFunctions.cpp 16-39: the arguments are looked at, but nothing is done with them
  | .start none => .ok ({ rv := ARGUMENTS_BAD }, c)
  | .start (some _) => .ok ({ rv := c.status }, c)
  -- 41-45
  | .finalize => .ok ({ rv := OK }, c)
  -- 47-63
  | .getInfo false => .ok ({ rv := ARGUMENTS_BAD }, c)
  | .getInfo true => .ok ({ rv := OK, info := some theInfo }, c)
  -- 65-76: the check for null has no `return`
  | .getFunctionList false => .ub
  | .getFunctionList true => .ok ({ rv := OK, functions := true }, c)
  -- 78-94
  | .getInterfaceList ifs none => .ok ({ rv := ARGUMENTS_BAD, ifaces := ifs }, c)
  | .getInterfaceList none (some _) => .ok ({ rv := OK, count := some 1 }, c)
  | .getInterfaceList (some []) (some _) => .ub
  | .getInterfaceList (some (_ :: is)) (some n) => .ok ({ rv := OK, ifaces := some (.pkcs11 :: is), count := some n }, c)
  -- 96-115: the length of the name is computed and not used
  | .getInterface none => .ub
  | .getInterface (some _) => .ok ({ rv := ARGUMENTS_BAD }, c)
  -- ManagementFunctions.cpp 12-24
  | .getSlotList l n => .ok ({ rv := OK, slots := l, count := n }, c)

/-- A history of calls: the answers in order. -/
def calls (c : Ctx) : List Call → Res (List Out)
  | [] => .ok []
  | a :: as => match call c a with
    | .ok (o, c) => match calls c as with
      | .ok os => .ok (o :: os)
      | .ub => .ub
      | .loop => .loop
    | .ub => .ub
    | .loop => .loop

end Flame.Soft
