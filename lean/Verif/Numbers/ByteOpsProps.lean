import Verif.Numbers.ByteOps
import Verif.Numbers.AsIntegralProps

/-!
# C86, C87: operators of `byte_t`
-/

namespace Flame

open CInt

namespace CInt

/-- Conversion keeps the low bits. -/
theorem cast_bits (t : IT) (v : Int) : t.cast v = ofBits t (toBits t v) := by
  cases t <;> simp only [IT.cast, ofBits, toBits, IT.signed, IT.bits, IT.min, IT.modulus, if_true, BitVec.toInt_ofInt, BitVec.toNat_ofInt, Int.bmod,
    Bool.false_eq_true, if_false] <;> omega

/-- Bits of a value with the given bits, in a narrower type. -/
theorem toBits_ofBits (t c : IT) (h : t.bits ≤ c.bits) (b : BitVec c.bits) : toBits t (ofBits c b) = b.setWidth t.bits := by
  apply BitVec.eq_of_toNat_eq
  have hb := b.isLt
  rw [BitVec.toNat_setWidth, toBits, BitVec.toNat_ofInt, ofBits, BitVec.toInt_eq_toNat_cond]
  generalize b.toNat = n at *
  cases t <;> cases c <;> simp only [IT.bits, IT.signed, if_true, if_false, Bool.false_eq_true] at * <;> (first | omega | (split <;> omega))

theorem toBits_setWidth (t c : IT) (h : t.bits ≤ c.bits) (v : Int) : (toBits c v).setWidth t.bits = toBits t v := by
  apply BitVec.eq_of_toNat_eq
  rw [BitVec.toNat_setWidth, toBits, toBits, BitVec.toNat_ofInt, BitVec.toNat_ofInt]
  cases t <;> cases c <;> simp only [IT.bits] at * <;> omega

theorem bits_le_common (t u : IT) : t.bits ≤ (t.common u).bits := by cases t <;> cases u <;> decide

theorem setWidth_eval (o : Bitwise) {n : Nat} (m : Nat) (a b : BitVec n) :
    (o.eval a b).setWidth m = o.eval (a.setWidth m) (b.setWidth m) := by
  cases o <;> simp [Bitwise.eval, BitVec.setWidth_or, BitVec.setWidth_and, BitVec.setWidth_xor]

/-- The bitwise operators work on the bits of the left operand's type, whatever type the operation is done in. -/
theorem cast_bitOp (o : Bitwise) (t u : IT) (x y : Int) : t.cast (bitOp o t u x y) = ofBits t (o.eval (toBits t x) (toBits t y)) := by
  rw [cast_bits, bitOp, toBits_ofBits t _ (bits_le_common t u), setWidth_eval, toBits_setWidth t _ (bits_le_common t u),
    toBits_setWidth t _ (bits_le_common t u)]

end CInt

/-- **C85.** `|` of an object with any integer is the bitwise or on the bits of its type. -/
theorem C85_or (t : IT) (x y : Int) : AsIntegral.or t x y = ofBits t (toBits t x ||| toBits t y) := by
  rw [AsIntegral.or, cast_bitOp]
  have : toBits t (t.cast y) = toBits t y := by
    rw [cast_bits, toBits_ofBits t t (Nat.le_refl _)]
    simp
  rw [this]
  rfl

/-! ## C86: bitwise operators and conversions -/

/-- **C86.** `|`, `&`, `^` with an integer of any type combine the byte's eight bits with the integer's low eight bits; `~` inverts the eight bits. -/
theorem C86_bitwise (o : Bitwise) (u : IT) (x y : Int) :
    (ByteOps.bit o u x y = (o.eval (BitVec.ofInt 8 x) (BitVec.ofInt 8 y)).toNat) ∧
    ByteOps.not x = (~~~ (BitVec.ofInt 8 x)).toNat := by
  constructor
  · rw [ByteOps.bit, cast_bitOp]
    rfl
  · rw [ByteOps.not, cast_bits, notOp, toBits_ofBits .u8 _ (by decide)]
    have : (~~~ (toBits (IT.u8.promote) x)).setWidth 8 = ~~~ ((toBits (IT.u8.promote) x).setWidth 8) := by
      exact BitVec.setWidth_not (by decide)
    have e : BitVec.setWidth IT.u8.bits (~~~ (toBits (IT.u8.promote) x)) = ~~~ (toBits .u8 x) :=
      this.trans (congrArg (~~~ ·) (toBits_setWidth .u8 _ (by decide) x))
    rw [e]
    rfl

/-- **C86.** A byte converted to any integer type and back is the same byte; an integer converted to a byte keeps its low eight bits. -/
theorem C86_round_trip (u : IT) (x y : Int) (hx : IT.u8.Fits x) :
    ByteOps.toByte (ByteOps.toInteger u x) = x ∧ IT.u8.Fits (ByteOps.toByte y) ∧ 256 ∣ y - ByteOps.toByte y := by
  refine ⟨?_, cast_fits _ _, cast_dvd .u8 y⟩
  rw [ByteOps.toByte, ByteOps.toInteger, cast_eq_of_fits hx]
  have h := cast_dvd u x
  have h2 : (256 : Int) ∣ u.modulus := by cases u <;> decide
  have : u.cast x - x = -(x - u.cast x) := by omega
  rw [this]
  exact (Int.dvd_neg).mpr (Int.dvd_trans h2 h)

/-! ## C87: shifts -/

/-- **C87, exact.** Shifting a byte left is undefined exactly for counts below 0 or above 31 and when the shifted value reaches 2³²; else the low eight bits
of the shifted value remain. -/
theorem C87_shl_exact (x : Int) (k : Int) (hx : IT.u8.Fits x) :
    ByteOps.shl x k = if 0 ≤ k ∧ k < 32 ∧ x * 2 ^ k.toNat < 4294967296 then .ok (x * 2 ^ k.toNat % 256) else .ub := by
  obtain ⟨h1, _⟩ := hx
  have h1 : 0 ≤ x := h1
  rw [ByteOps.shl, shlOp]
  have hb : ((IT.u8.promote.bits : Nat) : Int) = 32 := rfl
  by_cases hk : 0 ≤ k ∧ k < (IT.u8.promote.bits : Nat)
  · rw [if_pos hk, if_pos (show IT.u8.promote.signed = true from rfl)]
    by_cases hv : x * 2 ^ k.toNat < IT.u8.promote.modulus
    · rw [if_pos ⟨h1, hv⟩, if_pos ⟨hk.1, by omega, hv⟩]
      simp only [Res.bind, IT.cast, IT.min, IT.modulus, IT.promote, Res.ok.injEq]
      omega
    · rw [if_neg (fun h => hv h.2), if_neg (fun h => hv h.2.2)]
      rfl
  · rw [if_neg hk, if_neg (fun h => hk ⟨h.1, by omega⟩)]
    rfl

/-- **C87, what holds.** Left shifts by up to 24 are those of eight bits; right shifts by up to 31 too. -/
theorem C87_shift_partial (x : Int) (k : Nat) (hx : IT.u8.Fits x) :
    (k ≤ 24 → ByteOps.shl x k = .ok (BitVec.ofInt 8 x <<< k).toNat) ∧
    (k < 32 → ByteOps.shr x k = .ok (BitVec.ofInt 8 x >>> k).toNat) := by
  obtain ⟨h1, h2⟩ := hx
  have h1 : 0 ≤ x := h1
  have h2 : x ≤ 255 := h2
  obtain ⟨n, rfl⟩ : ∃ n : Nat, x = n := ⟨x.toNat, by omega⟩
  have hn : (BitVec.ofInt 8 (n : Int)).toNat = n := by
    rw [BitVec.toNat_ofInt]
    omega
  constructor
  · intro hk
    have hv : (n : Int) * 2 ^ k < 4294967296 := by
      have : n * 2 ^ k ≤ 255 * 2 ^ 24 := Nat.mul_le_mul (by omega) (Nat.pow_le_pow_right (by omega) hk)
      have : ((n * 2 ^ k : Nat) : Int) ≤ (255 * 2 ^ 24 : Nat) := Int.ofNat_le.mpr this
      rw [Int.natCast_mul, Int.natCast_pow] at this
      have e : ((255 * 2 ^ 24 : Nat) : Int) = 4278190080 := by decide
      rw [e] at this
      have e2 : ((2 : Nat) : Int) = 2 := rfl
      rw [e2] at this
      omega
    rw [C87_shl_exact _ _ ⟨h1, h2⟩, if_pos ⟨by omega, by omega, by simpa using hv⟩]
    congr 1
    rw [BitVec.toNat_shiftLeft, hn, Nat.shiftLeft_eq]
    simp
  · intro hk
    have hb : ((IT.u8.promote.bits : Nat) : Int) = 32 := rfl
    rw [ByteOps.shr, shrOp, if_pos ⟨by omega, by omega⟩]
    have hle : n / 2 ^ k ≤ n := Nat.div_le_self _ _
    have e : (n : Int) / 2 ^ (k : Int).toNat = ((n / 2 ^ k : Nat) : Int) := by
      simp
    rw [e]
    simp only [Res.bind, Res.ok.injEq]
    have hf : IT.u8.Fits ((n / 2 ^ k : Nat) : Int) := by
      generalize n / 2 ^ k = q at hle
      constructor <;> simp only [IT.min, IT.max] <;> omega
    rw [cast_of_fits hf, BitVec.toNat_ushiftRight, hn, Nat.shiftRight_eq_div_pow]

/-- **C87 fails.** Counts of 32 and more (or negative) are undefined for every byte, and counts 25 to 31 for every large enough byte, though shifting eight bits out
should give 0. -/
theorem C87_shift_ub (x : Int) (k : Int) (hx : IT.u8.Fits x) :
    (k < 0 ∨ 32 ≤ k → ByteOps.shl x k = .ub ∧ ByteOps.shr x k = .ub) ∧
    (0 ≤ k → 4294967296 ≤ x * 2 ^ k.toNat → ByteOps.shl x k = .ub) := by
  constructor
  · intro h
    constructor
    · rw [C87_shl_exact x k hx, if_neg (by omega)]
    · have hb : ((IT.u8.promote.bits : Nat) : Int) = 32 := rfl
      rw [ByteOps.shr, shrOp, if_neg (by omega)]
      rfl
  · intro _ h
    rw [C87_shl_exact x k hx, if_neg (by omega)]

/-! ## Concrete cases -/

example : ByteOps.bit .or .i32 5 (-256) = 5 ∧ ByteOps.bit .and .u64 255 1000 = 232 ∧ ByteOps.not 5 = 250 := by decide
example : ByteOps.toInteger .i8 200 = -56 ∧ ByteOps.toByte (-56) = 200 := by decide
example : ByteOps.shl 200 1 = .ok 144 ∧ ByteOps.shr 200 3 = .ok 25 ∧ ByteOps.shl 200 25 = .ub ∧ ByteOps.shl 1 31 = .ok 0 := by decide

namespace Flame
open CInt
example := C86_round_trip .i8 200 (-56) (by decide)
example := C87_shl_exact 200 25 (by decide)
example := C87_shift_partial 200 3 (by decide)
end Flame

end Flame
