import Verif.Bytes.Serial

/-!
# Model of wide integers (include/FlameIDE/Templates/WideInt.hpp)

State: the bytes of `byteArray` (`StaticArray<uichar_t, COUNT_BYTES>`), in index order.  Only construction and assignment
from integers, conversion to integers, `~`, `reset` and the compound operators are modelled; the constructors of lines
60-63 are only declared.  Floating point arguments (370-406) do not compile and are left out.
-/

namespace Flame.Wide
open Bytes BytesSpec

/-- WideInt.hpp 43-45: `COUNT_BYTES`. -/
def countBytes (bits : Nat) : Nat := if bits % 8 ≠ 0 then bits / 8 + 1 else bits / 8

/-- WideInt.hpp 226-229 and 347-350: `SPECIALIZED_VALUE_INIT_SIZE`; `n` bytes in the wide integer, `s = sizeof(value)`. -/
def valSize (n s : Nat) : Nat := if s ≤ n then s else n

/-- WideInt.hpp 231-233 and 352-354: `SPECIALIZED_VALUE_OFFSET`. -/
def valOff (n s : Nat) : Nat := if s ≤ n then 0 else s - n

/-- WideInt.hpp 235-237 and 356-358: `SERIALIZER_OFFSET`. -/
def serOff (n s : Nat) : Nat := if valOff n s = 0 then n - s else 0

/-- WideInt.hpp 221-245: `operatorInit`. -/
def operatorInit (host : Order) (bytes : List Byte) (w : Width) (v : BitVec (8 * w.n)) : Res (List Byte) := do
  let n := bytes.length
  let r ← Ser.special host .be ⟨bytes, serOff n w.n⟩ ⟨host, w, v, valSize n w.n, valOff n w.n⟩
  .ok r.1.data

/-- WideInt.hpp 426-438: the constructor; `StaticArray()` (Array.hpp 1280-1281) leaves the bytes indeterminate: they are
the argument `junk`. -/
def ctor (host : Order) (junk : List Byte) (w : Width) (v : BitVec (8 * w.n)) : Res (List Byte) := operatorInit host junk w v

/-- WideInt.hpp 869-872 with Array.hpp 1465-1472: `reset`. -/
def reset (bytes : List Byte) : List Byte := bytes.map fun _ => 0#8

/-- WideInt.hpp 440-454: `operator=`. -/
def assign (host : Order) (bytes : List Byte) (w : Width) (v : BitVec (8 * w.n)) : Res (List Byte) :=
  operatorInit host (reset bytes) w v

/-- WideInt.hpp 341-367 with 408-417 and 813-865: the conversion operators. -/
def toPrim (host : Order) (bytes : List Byte) (w : Width) : Res (BitVec (8 * w.n)) := do
  let n := bytes.length
  let r ← De.special host .be ⟨bytes, serOff n w.n⟩ ⟨host, w, 0, valSize n w.n, valOff n w.n⟩
  .ok (r.2.2.raw.setWidth _)

/-- WideInt.hpp 330-337 with 800-808: `operator~`: changes the operand and returns a reference to it. -/
def compl (bytes : List Byte) : List Byte := bytes.map (~~~ ·)

/-- The compound operators. -/
inductive Compound where
  | shl | shr | and | or | add | sub | mul | div
  deriving Repr, DecidableEq

/-- WideInt.hpp 456-603: every compound operator is a stub: it computes iterators or nothing and returns `*this`. -/
def compound (_ : Compound) (bytes : List Byte) (_ : List Byte) : List Byte := bytes

end Flame.Wide
