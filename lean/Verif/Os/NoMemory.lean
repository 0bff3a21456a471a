import Verif.Utils.LibPath
import Verif.String.Memory
import Verif.Crypto.Library
import Verif.Stream.Ram

/-!
# C186: what the library's own functions do when memory runs out

The containers are models of their own (C164).  Here are the functions that need memory besides: the constructors of `Library` (src/Os/Library.cpp 27-40, 81-136) and the reading of the
interface list (src/Crypto/Pkcs11/Pkcs11.cpp 253-288).  `getSlotIdList` (`Verif/Crypto/Library.lean`) and `RamStream::write` (`Verif/Stream/Ram.lean`) are modelled over the
allocator already.

`cell` says whether the few bytes of a `LibraryHandle` can be had, `can n` whether an array of `n` elements can.
-/

namespace Flame.NoMemory

section Library
variable {α : Type} [DecidableEq α] (z slash : α) (pre suf : CPtr α) (max : Nat)

/-- Library.cpp 125-135, after `reserve`. -/
def stringRest (f : Nat) (s : Str α) (name dir : CPtr α) : Res (Str α) := do
  let s ← LibPath.stringDir z slash f s dir
  let s ← Str.insertRaw z f s s.len pre
  let s ← Str.insertRaw z f s s.len name
  Str.insertRaw z f s s.len suf

/-- Library.cpp 81-136: `getHandle` up to the call of `library::open`; 124 asks for memory.  Simplification: the appending calls (125-132) get the memory they ask for; they ask
for none (`C186_open_partial` runs them with the fuel of a single round). -/
def getHandle (can : Nat → Bool) (f : Nat) (name dir : CPtr α) : Res (Raw α) := do
  let len ← LibPath.fullLength z pre suf name dir
  if len < max then do
    let a ← LibPath.staticPath z slash pre suf max name dir
    .ok (LibPath.memory (.inl a))
  else do
    let s ← StrMem.reserve z can ⟨Str.empty, none, 0, []⟩ (len + 1)
    let s ← stringRest z slash pre suf f s.str name dir
    .ok (LibPath.memory (.inr s))

/-- Library.cpp 27-31: `Library()`; 29 does not test the result, 30 writes through it. -/
def library (cell : Bool) : Res Unit := if cell then .ok () else .ub

/-- Library.cpp 38-42: `Library(name, directory)`: what the dynamic loader is asked to open. -/
def openLibrary (cell : Bool) (can : Nat → Bool) (f : Nat) (name dir : CPtr α) : Res (Raw α) := do
  library cell
  getHandle z slash pre suf max can f name dir

end Library

section Interfaces
variable {I F : Type}
open Pkcs11

/-- Pkcs11.cpp 253-288: `initializeInterfaceList`; 275 asks for memory and does not test whether it came.  A vector without a block has a null `data()`; asked with a null list the module tells the
number of interfaces only, as it did the first time (`C_GetInterfaceList`, PKCS #11 3.0, 5.2). -/
def initializeInterfaceList (can : Nat → Bool) (a : Answers I F) (l : Lib I F) : Res (Rv × Lib I F) :=
  match a.interfaceList with
  | some (rv1, count, _, _) =>
    if rv1 = OK ∧ count ≠ 0 ∧ ((Vec.empty : Vec I).reserve can count).cap = 0 then
      .ok (rv1, { l with ifaces := .result ((Vec.empty : Vec I).reserve can count).moveCtor.1 })
    else Pkcs11.initializeInterfaceList can a l
  | none => Pkcs11.initializeInterfaceList can a l

end Interfaces

end Flame.NoMemory
