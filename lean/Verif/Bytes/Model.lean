import Verif.Basic

/-!
# Model of byte order conversion (include/FlameIDE/Templates/ByteOrder.hpp)

Values are bit vectors; a signed overload casts to unsigned and back, i.e. it is the same function on bit vectors.
The host's byte order is a parameter `host` (`ByteOrder::HOST`, line 16).
-/

namespace Flame

/-- ByteOrder.hpp 11-17 (the unsupported PDP order, rejected by 120-122, is left out). -/
inductive Order where
  | le
  | be
  deriving Repr, DecidableEq

/-- The integer sizes that have a `reverseBytes` overload. -/
inductive Width where
  | w1 | w2 | w4 | w8
  deriving Repr, DecidableEq

/-- `sizeof`. -/
def Width.n : Width → Nat
  | .w1 => 1
  | .w2 => 2
  | .w4 => 4
  | .w8 => 8

namespace Bytes

/-- ByteOrder.hpp 157-160. -/
def rev8 (v : BitVec 8) : BitVec 8 := v

/-- ByteOrder.hpp 161-166 (the promotion to `int` loses nothing: both operands fit 16 bits after the mask; the outer
cast is the 16-bit return type). -/
def rev16 (v : BitVec 16) : BitVec 16 := ((v &&& 0xFF#16) <<< 8) ||| ((v &&& (0xFF#16 <<< 8)) >>> 8)

/-- ByteOrder.hpp 167-181. -/
def rev32 (v : BitVec 32) : BitVec 32 :=
  let b1 := (v &&& 0xFF#32) <<< 24
  let b2 := (v &&& (0xFF#32 <<< 8)) <<< 8
  let b3 := (v &&& (0xFF#32 <<< 16)) >>> 8
  let b4 := (v &&& (0xFF#32 <<< 24)) >>> 24
  ((b1 ||| b2) ||| b3) ||| b4

/-- ByteOrder.hpp 182-204. -/
def rev64 (v : BitVec 64) : BitVec 64 :=
  let b1 := (v &&& 0xFF#64) <<< 56
  let b2 := (v &&& (0xFF#64 <<< 8)) <<< 40
  let b3 := (v &&& (0xFF#64 <<< 16)) <<< 24
  let b4 := (v &&& (0xFF#64 <<< 24)) <<< 8
  let b5 := (v &&& (0xFF#64 <<< 32)) >>> 8
  let b6 := (v &&& (0xFF#64 <<< 40)) >>> 24
  let b7 := (v &&& (0xFF#64 <<< 48)) >>> 40
  let b8 := (v &&& (0xFF#64 <<< 56)) >>> 56
  ((((((b1 ||| b2) ||| b3) ||| b4) ||| b5) ||| b6) ||| b7) ||| b8

/-- Overload resolution of `reverseBytes` (157-237); the signed overloads (206-237) go through the unsigned ones. -/
def rev : (w : Width) → BitVec (8 * w.n) → BitVec (8 * w.n)
  | .w1 => rev8
  | .w2 => rev16
  | .w4 => rev32
  | .w8 => rev64

/-- `ToNeedOrder<CURRENT, NEED>` (ByteOrder.hpp 125-139, 141-155, 240-256, 258-272). -/
def convert (cur need : Order) (w : Width) (v : BitVec (8 * w.n)) : BitVec (8 * w.n) :=
  match cur, need with
  | .le, .le => v
  | .le, .be => rev w v
  | .be, .le => rev w v
  | .be, .be => v

/-! Compile-time reversal, `CompileTimeReverseBytes` -/

/-- ByteOrder.hpp 24-38. -/
def ct16 (v : BitVec 16) : BitVec 16 :=
  let b1 := (v &&& 0xFF#16) <<< 8
  let b2 := (v &&& (0xFF#16 <<< 8)) >>> 8
  b1 ||| b2

/-- ByteOrder.hpp 40-56. -/
def ct32 (v : BitVec 32) : BitVec 32 :=
  let b1 := (v &&& 0xFF#32) <<< 24
  let b2 := (v &&& (0xFF#32 <<< 8)) <<< 8
  let b3 := (v &&& (0xFF#32 <<< 16)) >>> 8
  let b4 := (v &&& (0xFF#32 <<< 24)) >>> 24
  b1 ||| b2 ||| b3 ||| b4

/-- ByteOrder.hpp 58-79. -/
def ct64 (v : BitVec 64) : BitVec 64 :=
  let b1 := (v &&& 0xFF#64) <<< 56
  let b2 := (v &&& (0xFF#64 <<< 8)) <<< 40
  let b3 := (v &&& (0xFF#64 <<< 16)) <<< 24
  let b4 := (v &&& (0xFF#64 <<< 24)) <<< 8
  let b5 := (v &&& (0xFF#64 <<< 32)) >>> 8
  let b6 := (v &&& (0xFF#64 <<< 40)) >>> 24
  let b7 := (v &&& (0xFF#64 <<< 48)) >>> 40
  let b8 := (v &&& (0xFF#64 <<< 56)) >>> 56
  b1 ||| b2 ||| b3 ||| b4 ||| b5 ||| b6 ||| b7 ||| b8

/-- ByteOrder.hpp 81-91 (`short_t`, `bits = 16`), 93-103 (`int_t`, 32) and 105-115 (`long_t`, 64): all three take a `short_t` template
argument; inside the class `CompileTimeReverseBytes` names the class itself, so `ReverseBytes<static_cast<...>(VALUE)>` with the unsigned type is
`ReverseBytes` of the same class.  `f` bounds the unfolding.  An argument that is no `short_t` does not convert to the parameter (narrowing
in a template argument): rejected by the compiler, written `ub` here. -/
def ctSigned (bits : Nat) : Nat → Int → Res Int
  | 0, _ => .loop
  | f + 1, v => if -2 ^ 15 ≤ v ∧ v < 2 ^ 15 then ctSigned bits f (v % 2 ^ bits) else .ub

end Bytes

end Flame
