import Verif.Raw
import Verif.Bytes.Serial

/-!
# Addresses of `streams::socket_utils` (include/FlameIDE/Streams/SocketUtils.hpp, src/Streams/SocketUtils.cpp)

A pointer to characters is `none` (null) or the readable characters from it on.  `templates::Expected` is a plain sum: that
exactly the matching handler is called is C34.  `Ipv4::make` is declared (SocketUtils.hpp 71) but not defined.
-/

namespace Flame.SockUtil
open BytesSpec (Byte)

/-- SocketUtils.hpp 74-75, 103-104: the numbers and the port; `none` is a value never written. -/
structure Ip where
  nums : Raw Nat
  port : Option Nat
  deriving Repr, DecidableEq

/-- String.hpp 799-808 `rawStringLength` on a pointer that is not null. -/
def strlen : List Byte → Res Nat
  | [] => .ub
  | c :: cs => if c ≠ 0#8 then (strlen cs).bind fun n => .ok (n + 1) else .ok 0

/-- String.hpp 799-808. -/
def rawStringLength : Option (List Byte) → Res Nat
  | none => .ok 0
  | some m => strlen m

/-- SocketUtils.cpp 22-33: `counter` after the loop. -/
def countColons : List Byte → Nat → Nat
  | [], counter => counter
  | c :: cs, counter => countColons cs (if c = 58#8 then counter + 1 else counter)

/-- SocketUtils.cpp 51-61, 116-126: the default constructor of an address of `n` numbers; every number is written. -/
def zero (n : Nat) : Ip := ⟨List.replicate n (some 0), some 0⟩

/-- SocketUtils.cpp 13-41 `stringToIpv4`; an error is `.error`. -/
def stringToIpv4 (text : Option (List Byte)) : Res (Except Int Ip) := do
  let n ← rawStringLength text
  if n ≥ 15 then .ok (.error (-1))
  else if countColons ((text.getD []).take n) 0 < 3 then .ok (.error (-1))
  else .ok (.ok (zero 4))

/-- SimpleAlgorithms.hpp 67-85 `copy` between arrays: reads `src[i]` and writes `dst[i]` from `i` on. -/
def copyNums (src : Raw Nat) : Raw Nat → Nat → Nat → Res (Raw Nat)
  | dst, _, 0 => .ok dst
  | dst, i, k + 1 => do
    let v ← Raw.rd src i
    let dst ← Raw.wr dst i v
    copyNums src dst (i + 1) k

/-- Reading a member that may never have been written. -/
def rdPort : Option Nat → Res Nat
  | some p => .ok p
  | none => .ub

/-- SocketUtils.cpp 93-101, 140-148: copy assignment; `n` is `COUNT_NUMBERS`. -/
def assign (n : Nat) (dst src : Ip) : Res Ip := do
  let nums ← copyNums src.nums dst.nums 0 n
  let p ← rdPort src.port
  .ok ⟨nums, some p⟩

/-- The members before any constructor has written them. -/
def raw (n : Nat) : Ip := ⟨List.replicate n none, none⟩

/-- SocketUtils.cpp 63-71, 128-135: copy constructor: the port first, then the numbers. -/
def copyCtor (n : Nat) (src : Ip) : Res Ip := do
  let p ← rdPort src.port
  let nums ← copyNums src.nums (raw n).nums 0 n
  .ok ⟨nums, some p⟩

/-- SocketUtils.cpp 73-91: `Ipv4(const char *)` through the private constructor. -/
def fromText4 (text : Option (List Byte)) : Res Ip := do
  match ← stringToIpv4 text with
  | .error _ => assign 4 (raw 4) (zero 4)
  | .ok a => assign 4 (raw 4) a

/-- SocketUtils.cpp 137-138: `Ipv6(const char *)` has an empty body and no initializers. -/
def fromText6 (_ : Option (List Byte)) : Ip := raw 8

/-- SocketUtils.cpp 103-107, 150-154 with SocketUtils.hpp 114-124: `getAddress`; the array has `size` characters. -/
def getAddress (size : Nat) (_ : Ip) : List Byte := List.replicate size 0#8

end Flame.SockUtil
