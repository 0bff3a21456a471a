import Verif.Basic

/-!
# Bit constants, minimal types, cyclic shifts

include/FlameIDE/Templates/Bits.hpp, include/FlameIDE/Templates/CycleInteger.hpp.
-/

namespace Flame.Bits

/-- Bits.hpp 12-16: `UpperedBit<IntegralType, BIT>::VALUE` for an unsigned type of `w` bits.  Types narrower than `int` are
promoted before the shift and converted back. -/
def upperedBit (w k : Nat) : Res Nat :=
  let p := if w < 32 then 32 else w
  if k < p then .ok (2 ^ k % 2 ^ w) else .ub

/-- How a constant is defined: `BIT(type, n)`, or another constant converted to a type of `w` bits. -/
inductive Def where
  | bit (w n : Nat)
  | cast (w family n : Nat)
  deriving DecidableEq, Repr

/-- Bits.hpp 23-30, 35-50, 52-83, 85-148: family and number in the constant's name, and its definition, in the order of the
source. -/
def table : List (Nat × Nat × Def) :=
  [(8, 0, .bit 8 0), (8, 1, .bit 8 1), (8, 2, .bit 8 2), (8, 3, .bit 8 3),
   (8, 4, .bit 8 4), (8, 5, .bit 8 5), (8, 6, .bit 8 6), (8, 7, .bit 8 7),
   (16, 0, .cast 16 8 0), (16, 1, .cast 16 8 1), (16, 2, .cast 16 8 2), (16, 3, .cast 16 8 3),
   (16, 4, .cast 16 8 4), (16, 5, .cast 16 8 5), (16, 6, .cast 16 8 6), (16, 7, .cast 16 8 7),
   (16, 8, .bit 16 8), (16, 9, .bit 16 9), (16, 10, .bit 16 10), (16, 11, .bit 16 11),
   (16, 12, .bit 16 12), (16, 13, .bit 16 13), (16, 14, .bit 16 14), (16, 15, .bit 16 15),
   (32, 0, .cast 32 16 0), (32, 1, .cast 32 16 1), (32, 2, .cast 32 16 2), (32, 3, .cast 32 16 3),
   (32, 4, .cast 32 16 4), (32, 5, .cast 32 16 5), (32, 6, .cast 32 16 6), (32, 7, .cast 32 16 7),
   (32, 8, .cast 32 16 8), (32, 9, .cast 32 16 9), (32, 10, .cast 32 16 10), (32, 11, .cast 32 16 11),
   (32, 12, .cast 32 16 12), (32, 13, .cast 32 16 13), (32, 14, .cast 32 16 14), (32, 15, .cast 32 16 15),
   (32, 16, .bit 32 16), (32, 17, .bit 32 17), (32, 18, .bit 32 18), (32, 19, .bit 32 19),
   (32, 20, .bit 32 20), (32, 21, .bit 32 21), (32, 22, .bit 32 22), (32, 23, .bit 32 23),
   (32, 24, .bit 32 24), (32, 25, .bit 32 25), (32, 26, .bit 32 26), (32, 27, .bit 32 27),
   (32, 28, .bit 32 28), (32, 29, .bit 32 29), (32, 30, .bit 32 30), (32, 31, .bit 32 31),
   (64, 0, .cast 64 32 0), (64, 1, .cast 64 32 1), (64, 2, .cast 64 32 2), (64, 3, .cast 64 32 3),
   (64, 4, .cast 64 32 4), (64, 5, .cast 64 32 5), (64, 6, .cast 64 32 6), (64, 7, .cast 64 32 7),
   (64, 8, .cast 64 32 8), (64, 9, .cast 64 32 9), (64, 10, .cast 64 32 10), (64, 11, .cast 64 32 11),
   (64, 12, .cast 64 32 12), (64, 13, .cast 64 32 13), (64, 14, .cast 64 32 14), (64, 15, .cast 64 32 15),
   (64, 16, .cast 64 32 16), (64, 17, .cast 64 32 17), (64, 18, .cast 64 32 18), (64, 19, .cast 64 32 19),
   (64, 20, .cast 64 32 20), (64, 21, .cast 64 32 21), (64, 22, .cast 64 32 22), (64, 23, .cast 64 32 23),
   (64, 24, .cast 64 32 24), (64, 25, .cast 64 32 25), (64, 26, .cast 64 32 26), (64, 27, .cast 64 32 27),
   (64, 28, .cast 64 32 28), (64, 29, .cast 64 32 29), (64, 30, .cast 64 32 30), (64, 31, .cast 64 32 31),
   (64, 32, .bit 64 32), (64, 33, .bit 64 33), (64, 34, .bit 64 34), (64, 35, .bit 64 35),
   (64, 36, .bit 64 36), (64, 37, .bit 64 37), (64, 38, .bit 64 38), (64, 39, .bit 64 39),
   (64, 40, .bit 64 40), (64, 41, .bit 64 41), (64, 42, .bit 64 42), (64, 43, .bit 64 43),
   (64, 44, .bit 64 44), (64, 45, .bit 64 45), (64, 46, .bit 64 46), (64, 47, .bit 64 47),
   (64, 48, .bit 64 48), (64, 49, .bit 64 49), (64, 50, .bit 64 50), (64, 51, .bit 64 51),
   (64, 52, .bit 64 52), (64, 53, .bit 64 53), (64, 54, .bit 64 54), (64, 55, .bit 64 55),
   (64, 56, .bit 64 56), (64, 57, .bit 64 57), (64, 58, .bit 64 58), (64, 59, .bit 64 59),
   (64, 60, .bit 64 60), (64, 63, .bit 64 61), (64, 62, .bit 64 62), (64, 61, .bit 64 63)]

/-- The definition of a constant, by name. -/
def lookup (family n : Nat) : Option Def := (table.find? fun r => r.1 == family && r.2.1 == n).map (·.2.2)

/-- The value of a constant (constants are defined in terms of earlier families: at most four steps). -/
def value : Nat → Nat → Nat → Option Nat
  | 0, _, _ => none
  | f + 1, family, n => match lookup family n with
    | some (.bit w k) => match upperedBit w k with
      | .ok v => some v
      | _ => none
    | some (.cast w family n) => (value f family n).map (· % 2 ^ w)
    | none => none

/-- Bits.hpp 32. -/
def byte0F : Option Nat := do
  .some ((← value 4 8 0) ||| (← value 4 8 1) ||| (← value 4 8 2) ||| (← value 4 8 3))

/-- Bits.hpp 33. -/
def byteFF : Option Nat := do
  .some ((← byte0F) ||| (← value 4 8 4) ||| (← value 4 8 5) ||| (← value 4 8 6) ||| (← value 4 8 7))

/-- Bits.hpp 153-175: the width of `MinimalType<n>::Type`; `none` is `void`. -/
def minimalType (n : Nat) : Option Nat :=
  if n ≤ 8 then some 8 else if n ≤ 16 then some 16 else if n ≤ 32 then some 32 else if n ≤ 64 then some 64 else none

/-! ## CycleInteger

The value is its bit pattern `v < 2 ^ w`; `sg` says whether `IntType` is signed.  Types narrower than `int` (32 bits) are promoted
before a shift.  Shifting by the width or more is undefined, and so is shifting a negative signed value to the left or a signed
value beyond the unsigned type of the same width (C++14). -/

/-- The width arithmetic is done in. -/
def promoted (w : Nat) : Nat := if w < 32 then 32 else w

/-- The number a bit pattern denotes. -/
def num (sg : Bool) (w v : Nat) : Int := if sg ∧ 2 ^ (w - 1) ≤ v then (v : Int) - 2 ^ w else v

/-- `val >> s`, converted to `IntType`. -/
def shr (sg : Bool) (w v s : Nat) : Res Nat :=
  if s < promoted w then .ok ((num sg w v / 2 ^ s) % 2 ^ w).toNat else .ub

/-- `val << s`, converted to `IntType`. -/
def shl (sg : Bool) (w v s : Nat) : Res Nat :=
  if s < promoted w then
    if sg = true ∨ w < 32 then
      if num sg w v < 0 ∨ 2 ^ promoted w ≤ num sg w v * 2 ^ s then .ub else .ok ((num sg w v * 2 ^ s) % 2 ^ w).toNat
    else .ok (v * 2 ^ s % 2 ^ w)
  else .ub

/-- CycleInteger.hpp 293-308: `operator>>=(IntType1)`; `a` is the width of `IntType1` (`BIT_SIZE`), `k` the argument.
`value %= BIT_SIZE` is computed in `size_t`. -/
def rotR (sg : Bool) (w a v : Nat) (k : Int) : Res Nat := do
  let r := (k % a).toNat
  let x ← shr sg w v r
  let y ← shl sg w v (a - r)
  .ok (x ||| y)

/-- CycleInteger.hpp 317-333: `operator<<=(IntType1)`. -/
def rotL (sg : Bool) (w a v : Nat) (k : Int) : Res Nat := do
  let r := (k % a).toNat
  let x ← shl sg w v r
  let y ← shr sg w v (a - r)
  .ok (x ||| y)

/-- CycleInteger.hpp 455-465: `operator>>(IntType1)`: the argument is converted to (unsigned) `IntType` first.  The overloads for
`CycleInteger` arguments (310-315, 335-340, 445-453, 467-474) either do not compile when used or do the same. -/
def shiftR (w v : Nat) (k : Int) : Res Nat := rotR false w w v (k % 2 ^ w)

/-- CycleInteger.hpp 433-443: `operator<<(IntType1)`. -/
def shiftL (w v : Nat) (k : Int) : Res Nat := rotL false w w v (k % 2 ^ w)

end Flame.Bits
