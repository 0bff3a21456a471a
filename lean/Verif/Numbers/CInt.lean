import Verif.Basic

/-!
# The fixed-width integer types of the library and the C++14 operators on them

`include/FlameIDE/Common/PrimitiveTypes.hpp` 10-25: `ichar_t` … `ulong_t` are `int8_t` … `uint64_t`; `int` has 32 bits, `long` 64.

Values are integers.  Conversions to a signed type that cannot represent the value are implementation-defined in C++14; modelled as all
supported compilers do it: reduction modulo 2ⁿ.
-/

namespace Flame.CInt

/-- The integer types (PrimitiveTypes.hpp 13-20). -/
inductive IT where
  | i8 | i16 | i32 | i64 | u8 | u16 | u32 | u64
  deriving DecidableEq, Repr

namespace IT

def bits : IT → Nat
  | i8 => 8 | i16 => 16 | i32 => 32 | i64 => 64 | u8 => 8 | u16 => 16 | u32 => 32 | u64 => 64

def signed : IT → Bool
  | i8 => true | i16 => true | i32 => true | i64 => true | u8 => false | u16 => false | u32 => false | u64 => false

/-- 2ⁿ -/
def modulus : IT → Int
  | i8 => 256 | i16 => 65536 | i32 => 4294967296 | i64 => 18446744073709551616
  | u8 => 256 | u16 => 65536 | u32 => 4294967296 | u64 => 18446744073709551616

/-- least value -/
def min : IT → Int
  | i8 => -128 | i16 => -32768 | i32 => -2147483648 | i64 => -9223372036854775808 | u8 => 0 | u16 => 0 | u32 => 0 | u64 => 0

/-- greatest value -/
def max : IT → Int
  | i8 => 127 | i16 => 32767 | i32 => 2147483647 | i64 => 9223372036854775807
  | u8 => 255 | u16 => 65535 | u32 => 4294967295 | u64 => 18446744073709551615

/-- `v` is a value of the type. -/
def Fits (t : IT) (v : Int) : Prop := t.min ≤ v ∧ v ≤ t.max

instance (t : IT) (v : Int) : Decidable (t.Fits v) := by unfold Fits; infer_instance

/-- `static_cast<t>(v)`. -/
def cast (t : IT) (v : Int) : Int := (v - t.min) % t.modulus + t.min

/-- integral promotion -/
def promote : IT → IT
  | i8 => i32 | i16 => i32 | u8 => i32 | u16 => i32 | t => t

/-- usual arithmetic conversions of two promoted types -/
def common (a b : IT) : IT :=
  match a.promote, b.promote with
  | u64, _ => u64
  | _, u64 => u64
  | i64, _ => i64
  | _, i64 => i64
  | u32, _ => u32
  | _, u32 => u32
  | _, _ => i32

end IT

/-- The result `r` of an arithmetic operator computed in type `t` (already promoted): signed overflow is undefined. -/
def arith (t : IT) (r : Int) : Res Int :=
  if t.signed then (if t.Fits r then .ok r else .ub) else .ok (t.cast r)

inductive Arith where
  | add | sub | mul
  deriving DecidableEq, Repr

def Arith.eval : Arith → Int → Int → Int
  | add, x, y => x + y
  | sub, x, y => x - y
  | mul, x, y => x * y

/-- `x op y` for operands of types `a`, `b`; the value has type `common a b`. -/
def arithOp (o : Arith) (a b : IT) (x y : Int) : Res Int :=
  arith (a.common b) (o.eval ((a.common b).cast x) ((a.common b).cast y))

/-- `x / y`: truncated; by zero undefined. -/
def divOp (a b : IT) (x y : Int) : Res Int :=
  if (a.common b).cast y = 0 then .ub else arith (a.common b) (((a.common b).cast x).tdiv ((a.common b).cast y))

/-- `x << y` (C++14, [expr.shift]): the type is the promoted left one; a count negative or not below the width is undefined; a signed
left operand must be nonnegative and its shifted value below 2ⁿ. -/
def shlOp (a : IT) (x y : Int) : Res Int :=
  if 0 ≤ y ∧ y < a.promote.bits then
    if a.promote.signed then
      if 0 ≤ x ∧ x * 2 ^ y.toNat < a.promote.modulus then .ok (a.promote.cast (x * 2 ^ y.toNat)) else .ub
    else .ok (a.promote.cast (x * 2 ^ y.toNat))
  else .ub

/-- `x >> y`; of a negative value implementation-defined: arithmetic. -/
def shrOp (a : IT) (x y : Int) : Res Int :=
  if 0 ≤ y ∧ y < a.promote.bits then .ok (x / 2 ^ y.toNat) else .ub

/-- The bits of a value. -/
def toBits (t : IT) (v : Int) : BitVec t.bits := BitVec.ofInt t.bits v

/-- The value with given bits. -/
def ofBits (t : IT) (b : BitVec t.bits) : Int := if t.signed then b.toInt else b.toNat

inductive Bitwise where
  | or | and | xor
  deriving DecidableEq, Repr

def Bitwise.eval {n : Nat} : Bitwise → BitVec n → BitVec n → BitVec n
  | or, x, y => x ||| y
  | and, x, y => x &&& y
  | xor, x, y => x ^^^ y

/-- `x | y`, `x & y`, `x ^ y`. -/
def bitOp (o : Bitwise) (a b : IT) (x y : Int) : Int :=
  ofBits (a.common b) (o.eval (toBits (a.common b) x) (toBits (a.common b) y))

/-- `~x`. -/
def notOp (a : IT) (x : Int) : Int := ofBits a.promote (~~~ (toBits a.promote x))

end Flame.CInt
