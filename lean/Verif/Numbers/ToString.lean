import Verif.String.Model

/-!
# Model of integer to string conversion (include/FlameIDE/Templates/StringConvertions.hpp)

Characters are bytes; the string is the `BasicString` model.  Values are integers together with their C++ type.
Assumptions: `size_t` and `ulong_t` have 64 bits, `int` has 32, narrowing conversions wrap (as the supported compilers do).
-/

namespace Flame.ToStr

/-- An integer type: signedness and number of bits. -/
structure Ty where
  signed : Bool
  bits : Nat
  deriving Repr, DecidableEq

/-- Values of the type. -/
def Ty.has (t : Ty) (v : Int) : Prop :=
  if t.signed then -(2 ^ (t.bits - 1) : Int) ≤ v ∧ v < 2 ^ (t.bits - 1) else 0 ≤ v ∧ v < 2 ^ t.bits

instance (t : Ty) (v : Int) : Decidable (t.has v) := by unfold Ty.has; infer_instance

/-- Conversion to the type. -/
def Ty.wrap (t : Ty) (v : Int) : Int := if t.signed then (BitVec.ofInt t.bits v).toInt else v % 2 ^ t.bits

/-- `value *= -1` (lines 135, 176): types narrower than `int` are computed in `int` and converted back; for the others
negating the least value overflows. -/
def Ty.neg (t : Ty) (v : Int) : Res Int :=
  if t.bits < 32 then .ok (t.wrap (-v)) else if v = -(2 ^ (t.bits - 1) : Int) then .ub else .ok (-v)

/-- Conversion to `ulong_t`. -/
def u64 (v : Int) : Nat := (v % 2 ^ 64).toNat

/-- Lines 95-126: `NumberChecker<MIN, MAX, BUFFER_SIZE>::get`; the first argument bounds the number of instantiations (19
are used). -/
def checker : Nat → Nat → Nat → Nat → Nat → Nat
  | 0, _, _, bs, _ => bs
  | f + 1, mn, mx, bs, v =>
    if mn = 999999999999999999 ∧ mx = 9999999999999999999 then (if mn ≤ v ∧ v ≤ mx then bs else bs + 1)
    else if mn ≤ v ∧ v ≤ mx then bs
    else checker f mx ((mx * 10 + 9) % 2 ^ 64) (bs + 1) v

/-- `NumberChecker<0, 9, 1>::get`. -/
def digitCount (v : Nat) : Nat := checker 19 0 9 1 v

/-- Lines 128-152: `bufferSize`. -/
def bufferSize (t : Ty) (v : Int) : Res Nat :=
  if t.signed = true ∧ v < 0 then do
    let m ← t.neg v
    .ok (1 + digitCount (m % 2 ^ t.bits).toNat)
  else .ok (digitCount v.toNat)

/-- Lines 181-185. -/
def decLoop : Nat → Nat → Nat
  | 0, dec => dec
  | n + 1, dec => decLoop n (dec * 10 % 2 ^ 64)

/-- Lines 187-193; `n` iterations remain. -/
def digitLoop (t : Ty) (f : Nat) : Nat → Nat → Int → Str (BitVec 8) → Res (Str (BitVec 8))
  | 0, _, _, s => .ok s
  | n + 1, dec, v, s =>
    if dec = 0 then .ub
    else do
      let s ← Str.pushBackMove 0#8 f s (BitVec.ofNat 8 (48 + u64 v / dec))
      digitLoop t f n (dec / 10) (t.wrap (u64 v % dec : Nat)) s

/-- Lines 164-196 (`toString`, 210-217).  `f` is the fuel of the recursion in `String`. -/
def convert (t : Ty) (f : Nat) (v : Int) : Res (Str (BitVec 8)) := do
  let n ← bufferSize t v
  let s ← Str.reserve 0#8 (Str.empty : Str (BitVec 8)) n
  if t.signed = true ∧ v < 0 then
    let s ← Str.pushBackMove 0#8 f s 45#8
    let m ← t.neg v
    digitLoop t f (n - 1) (decLoop (n - 1 - 1) 1) m s
  else digitLoop t f n (decLoop (n - 1) 1) v s

end Flame.ToStr
