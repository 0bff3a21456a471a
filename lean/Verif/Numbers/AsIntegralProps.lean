import Verif.Numbers.AsIntegral

/-!
# C84, C85: `AsIntegralType` behaves like the integers it holds
-/

namespace Flame

open CInt AsIntegral

namespace CInt

theorem modulus_pos (t : IT) : 0 < t.modulus := by cases t <;> decide

theorem max_eq (t : IT) : t.max = t.min + t.modulus - 1 := by cases t <;> decide

/-- The conversion gives a value of the type … -/
theorem cast_fits (t : IT) (v : Int) : t.Fits (t.cast v) := by
  have h1 := Int.emod_nonneg (v - t.min) (Int.ne_of_gt (modulus_pos t))
  have h2 := Int.emod_lt_of_pos (v - t.min) (modulus_pos t)
  have h3 := max_eq t
  constructor <;> simp only [IT.cast] <;> omega

/-- … congruent to the given one … -/
theorem cast_dvd (t : IT) (v : Int) : t.modulus ∣ v - t.cast v := by
  refine ⟨(v - t.min) / t.modulus, ?_⟩
  have := Int.mul_ediv_add_emod (v - t.min) t.modulus
  simp only [IT.cast]
  omega

/-- … and there is only one such value. -/
theorem fits_unique {t : IT} {a b : Int} (ha : t.Fits a) (hb : t.Fits b) (h : t.modulus ∣ a - b) : a = b := by
  obtain ⟨k, hk⟩ := h
  have h3 := max_eq t
  have hp := modulus_pos t
  obtain ⟨ha1, ha2⟩ := ha
  obtain ⟨hb1, hb2⟩ := hb
  have : k = 0 := by
    rcases Int.lt_trichotomy k 0 with hk' | hk' | hk'
    · have : t.modulus * k ≤ t.modulus * (-1) := Int.mul_le_mul_of_nonneg_left (by omega) (by omega)
      omega
    · exact hk'
    · have : t.modulus * 1 ≤ t.modulus * k := Int.mul_le_mul_of_nonneg_left (by omega) (by omega)
      omega
  subst this
  omega

theorem cast_of_fits {t : IT} {v : Int} (h : t.Fits v) : t.cast v = v :=
  (fits_unique h (cast_fits t v) (cast_dvd t v)).symm

theorem cast_eq_iff (t : IT) (a b : Int) : t.cast a = t.cast b ↔ t.modulus ∣ a - b := by
  have ha := cast_dvd t a
  have hb := cast_dvd t b
  constructor
  · intro h
    have : a - b = (a - t.cast a) - (b - t.cast b) := by omega
    rw [this]
    exact Int.dvd_sub ha hb
  · intro h
    refine fits_unique (cast_fits t a) (cast_fits t b) ?_
    have : t.cast a - t.cast b = (a - b) - ((a - t.cast a) - (b - t.cast b)) := by omega
    rw [this]
    exact Int.dvd_sub h (Int.dvd_sub ha hb)

theorem cast_eq_of_fits {t : IT} {a b : Int} (hb : t.Fits b) : t.cast a = b ↔ t.modulus ∣ a - b := by
  rw [← cast_eq_iff, cast_of_fits hb]

theorem fits_promote {t : IT} {v : Int} (h : t.Fits v) : t.promote.Fits v := by
  cases t <;> simp [IT.Fits, IT.promote, IT.min, IT.max] at h ⊢ <;> omega

theorem common_self (t : IT) : t.common t = t.promote := by cases t <;> rfl

theorem modulus_promote_dvd (t : IT) : t.modulus ∣ t.promote.modulus := by
  cases t <;> first | exact Int.dvd_refl _ | decide

/-- Converting twice. -/
theorem cast_promote (t : IT) (v : Int) : t.cast (t.promote.cast v) = t.cast v := by
  rw [cast_eq_iff]
  have h := Int.dvd_trans (modulus_promote_dvd t) (cast_dvd t.promote v)
  have : t.promote.cast v - v = -(v - t.promote.cast v) := by omega
  rw [this]
  exact (Int.dvd_neg).mpr h

theorem cast_eval (t : IT) (o : Arith) (x y : Int) : t.cast (o.eval x (t.cast y)) = t.cast (o.eval x y) := by
  rw [cast_eq_iff]
  have h := cast_dvd t y
  cases o with
  | add =>
    have : Arith.eval .add x (t.cast y) - Arith.eval .add x y = -(y - t.cast y) := by simp only [Arith.eval]; omega
    rw [this]
    exact (Int.dvd_neg).mpr h
  | sub =>
    have : Arith.eval .sub x (t.cast y) - Arith.eval .sub x y = y - t.cast y := by simp only [Arith.eval]; omega
    rw [this]
    exact h
  | mul =>
    have : Arith.eval .mul x (t.cast y) - Arith.eval .mul x y = x * (-(y - t.cast y)) := by
      simp only [Arith.eval, Int.mul_neg, Int.mul_sub]; omega
    rw [this]
    exact Int.dvd_trans ((Int.dvd_neg).mpr h) (Int.dvd_mul_left _ _)

end CInt

/-! ## C84: comparisons -/

/-- **C84, what holds.** Equality, inequality, less and greater of two objects are those of their values. -/
theorem C84_same_class_partial (x y : Int) :
    (eqMe x y = true ↔ x = y) ∧ (neMe x y = true ↔ x ≠ y) ∧ (gtMe x y = true ↔ x > y) ∧ (ltMe x y = true ↔ x < y) := by
  simp [eqMe, neMe, gtMe, ltMe]

/-- **C84 fails.** No value is greater or equal to itself, or less or equal to itself; exactly equality is wrong. -/
theorem C84_ge_le_violated (x y : Int) :
    geMe x x = false ∧ leMe x x = false ∧ (geMe x y ≠ decide (x ≥ y) ↔ x = y) ∧ (leMe x y ≠ decide (x ≤ y) ↔ x = y) := by
  refine ⟨by simp [geMe], by simp [leMe], ?_, ?_⟩
  · by_cases h : x = y
    · simp [geMe, h]
    · have : (x > y) = (x ≥ y) := by simp only [eq_iff_iff]; omega
      simp [geMe, h, this]
  · by_cases h : x = y
    · simp [leMe, h]
    · have : (x < y) = (x ≤ y) := by simp only [eq_iff_iff]; omega
      simp [leMe, h, this]

/-- **C84 fails.** The same for integer operands the object's type can represent: `>=` and `<=` are wrong exactly for equal values. -/
theorem C84_ge_le_mixed_violated (t : IT) (x y : Int) (hy : t.Fits y) :
    (geInt t x y ≠ decide (x ≥ y) ↔ x = y) ∧ (leInt t x y ≠ decide (x ≤ y) ↔ x = y) := by
  simp only [geInt, leInt, cast_of_fits hy]
  exact ⟨(C84_ge_le_violated x y).2.2.1, (C84_ge_le_violated x y).2.2.2⟩

/-- **C84, conversion.** Only zero converts to `false`. -/
theorem C84_bool (x : Int) : AsIntegral.toBool x = false ↔ x = 0 := by simp [AsIntegral.toBool]

/-- **C84, what holds.** Compared with an integer the object's type can represent, `!=`, `>` and `<` are right, and so is `==` if the operand's
type can represent the object's value. -/
theorem C84_mixed_partial (t u : IT) (x y : Int) :
    (u.Fits x → (eqInt u x y = true ↔ x = y)) ∧
    (t.Fits y → (neInt t x y = true ↔ x ≠ y) ∧ (gtInt t x y = true ↔ x > y) ∧ (ltInt t x y = true ↔ x < y)) := by
  constructor
  · intro h
    simp [eqInt, cast_of_fits h]
  · intro h
    simp [neInt, gtInt, ltInt, cast_of_fits h]

/-- **C84, exact.** With any integer operand, `==` compares modulo the operand's type and `!=` modulo the object's. -/
theorem C84_mixed_exact (t u : IT) (x y : Int) (hx : t.Fits x) (hy : u.Fits y) :
    (eqInt u x y = true ↔ u.modulus ∣ x - y) ∧ (neInt t x y = true ↔ ¬ t.modulus ∣ x - y) := by
  constructor
  · simp only [eqInt, decide_eq_true_eq]
    exact cast_eq_of_fits hy
  · simp only [neInt, decide_eq_true_eq, ne_eq]
    rw [← cast_eq_iff, cast_of_fits hx]

/-- **C84 fails.** `a == b` and `a != b` are both true for every value of the object differing from the operand by a multiple of the operand's
modulus but not of its own. -/
theorem C84_eq_and_ne (t u : IT) (x y : Int) (hx : t.Fits x) (hy : u.Fits y) :
    (eqInt u x y = true ∧ neInt t x y = true) ↔ (u.modulus ∣ x - y ∧ ¬ t.modulus ∣ x - y) := by
  obtain ⟨h1, h2⟩ := C84_mixed_exact t u x y hx hy
  rw [h1, h2]

/-- **C84 fails.** Against an operand the object's type cannot represent, the order is that of the reduced operand: every value but the least one counts as
greater than some larger operand, every value but the greatest one as less than some smaller operand. -/
theorem C84_order_violated (t : IT) (x : Int) (hx : t.Fits x) :
    (x ≠ t.min → gtInt t x (x - 1 + t.modulus) = true ∧ x < x - 1 + t.modulus) ∧
    (x ≠ t.max → ltInt t x (x + 1 - t.modulus) = true ∧ x + 1 - t.modulus < x) := by
  have hm : 2 ≤ t.modulus := by cases t <;> decide
  obtain ⟨h1, h2⟩ := hx
  constructor
  · intro h
    have : t.cast (x - 1 + t.modulus) = x - 1 := by
      rw [cast_eq_of_fits (by constructor <;> omega)]
      exact ⟨1, by omega⟩
    simp only [gtInt, this, decide_eq_true_eq]
    omega
  · intro h
    have : t.cast (x + 1 - t.modulus) = x + 1 := by
      rw [cast_eq_of_fits (by constructor <;> omega)]
      exact ⟨-1, by omega⟩
    simp only [ltInt, this, decide_eq_true_eq]
    omega

/-! ## C85: arithmetic -/

/-- **C85, exact.** `+ - *`: undefined exactly when the promoted type is signed and cannot represent the result on the reduced operand; otherwise the result
is the value of the type congruent to the mathematical one. -/
theorem C85_arith_exact (o : Arith) (t : IT) (x y : Int) (hx : t.Fits x) :
    AsIntegral.arith o t x y =
      if t.promote.signed = true ∧ ¬ t.promote.Fits (o.eval x (t.cast y)) then .ub else .ok (t.cast (o.eval x y)) := by
  have hy := cast_fits t y
  rw [AsIntegral.arith, arithOp, common_self, cast_of_fits (fits_promote hx), cast_of_fits (fits_promote hy), CInt.arith]
  by_cases hs : t.promote.signed = true
  · by_cases hf : t.promote.Fits (o.eval x (t.cast y))
    · simp [hs, hf, Res.bind, cast_eval]
    · simp [hs, hf, Res.bind]
  · simp [hs, Res.bind, cast_promote, cast_eval]

/-- **C85, what holds.** If the operand and the mathematical result are values of the type, that is the result. -/
theorem C85_arith_partial (o : Arith) (t : IT) (x y : Int) (hx : t.Fits x) (hy : t.Fits y) (hr : t.Fits (o.eval x y)) :
    AsIntegral.arith o t x y = .ok (o.eval x y) := by
  rw [C85_arith_exact o t x y hx, cast_of_fits hy, cast_of_fits hr, if_neg]
  rintro ⟨_, h⟩
  exact h (fits_promote hr)

/-- **C85, what holds.** For every type that is not `int32`/`int64`, sums and differences are never undefined and wrap around; products too, except for
`uint16`. -/
theorem C85_wraps (o : Arith) (t : IT) (x y : Int) (hx : t.Fits x)
    (ht : t ≠ .i32 ∧ t ≠ .i64) (ho : o = .mul → t ≠ .u16) :
    ∃ r, AsIntegral.arith o t x y = .ok r ∧ t.Fits r ∧ t.modulus ∣ o.eval x y - r := by
  refine ⟨t.cast (o.eval x y), ?_, cast_fits _ _, cast_dvd _ _⟩
  rw [C85_arith_exact o t x y hx, if_neg]
  rintro ⟨hs, hf⟩
  apply hf
  have hy := cast_fits t y
  generalize t.cast y = z at hy
  obtain ⟨hx1, hx2⟩ := hx
  obtain ⟨hy1, hy2⟩ := hy
  have hmul : ∀ m : Int, -m ≤ x → x ≤ m → -m ≤ z → z ≤ m → 0 ≤ m → -(m * m) ≤ x * z ∧ x * z ≤ m * m := by
    intro m h1 h2 h3 h4 h5
    have ha : (x * z).natAbs ≤ (m * m).natAbs := by
      rw [Int.natAbs_mul, Int.natAbs_mul]
      exact Nat.mul_le_mul (by omega) (by omega)
    have : 0 ≤ m * m := Int.mul_nonneg h5 h5
    omega
  cases t <;> simp [IT.promote, IT.signed] at hs ht <;> cases o <;>
    simp [IT.Fits, IT.promote, IT.min, IT.max, Arith.eval] at * <;> try omega
  · have := hmul 128 (by omega) (by omega) (by omega) (by omega) (by omega); omega
  · have := hmul 32768 (by omega) (by omega) (by omega) (by omega) (by omega); omega
  · have := hmul 255 (by omega) (by omega) (by omega) (by omega) (by omega); omega

/-- **C85 fails.** Products of two `uint16` objects are undefined as soon as they exceed 2³¹ - 1 (the operands are promoted to `int`). -/
theorem C85_u16_mul_ub (x y : Int) (hx : IT.u16.Fits x) (hy : IT.u16.Fits y) (h : 2147483647 < x * y) :
    AsIntegral.arith .mul .u16 x y = .ub := by
  rw [C85_arith_exact _ _ x y hx, if_pos]
  rw [cast_of_fits hy]
  refine ⟨rfl, ?_⟩
  simp only [IT.Fits, IT.promote, IT.max, Arith.eval]
  omega

/-- **C85, what holds.** Division by a value of the type is the truncated quotient, except by 0 (undefined) and of the least value by -1. -/
theorem C85_div_partial (t : IT) (x y : Int) (hx : t.Fits x) (hy : t.Fits y) (h0 : y ≠ 0) (h1 : ¬ (t.signed = true ∧ x = t.min ∧ y = -1)) :
    AsIntegral.div t x y = .ok (x.tdiv y) := by
  have hr : t.Fits (x.tdiv y) := by
    have ha : (x.tdiv y).natAbs = x.natAbs / y.natAbs := Int.natAbs_tdiv x y
    obtain ⟨hx1, hx2⟩ := hx
    obtain ⟨hy1, hy2⟩ := hy
    have hle : x.natAbs / y.natAbs ≤ x.natAbs := Nat.div_le_self _ _
    by_cases hy1' : y = -1
    · subst hy1'
      have : x.tdiv (-1) = -x := by simp [Int.tdiv_neg]
      rw [this]
      cases t <;> simp [IT.Fits, IT.min, IT.max, IT.signed] at * <;> omega
    · by_cases hy2' : y = 1
      · subst hy2'
        simpa using ⟨hx1, hx2⟩
      · have h2 : 2 ≤ y.natAbs := by omega
        have h3 : x.natAbs / y.natAbs ≤ x.natAbs / 2 := Nat.div_le_div_left h2 (by omega)
        have h4 : 0 ≤ x → 0 ≤ y → 0 ≤ x.tdiv y := fun a b => Int.tdiv_nonneg a b
        have h5 : (x.tdiv y).natAbs ≤ x.natAbs / 2 := by rw [ha]; exact h3
        clear ha hle h3 h1
        generalize x.tdiv y = q at *
        cases t <;> simp only [IT.Fits, IT.min, IT.max] at * <;> omega
  rw [AsIntegral.div, divOp, common_self, cast_of_fits hy, cast_of_fits (fits_promote hx), cast_of_fits (fits_promote hy), if_neg h0, CInt.arith]
  by_cases hs : t.promote.signed = true
  · simp [hs, fits_promote hr, Res.bind, cast_of_fits hr]
  · simp [hs, Res.bind, cast_of_fits (fits_promote hr), cast_of_fits hr]

/-- **C85 fails.** Dividing by any multiple of the type's modulus – a perfectly good number of a wider type – divides by zero. -/
theorem C85_div_reduced_ub (t : IT) (x y : Int) (h : t.modulus ∣ y) : AsIntegral.div t x y = .ub := by
  have : t.cast y = 0 := by
    rw [cast_eq_of_fits (by cases t <;> decide)]
    simpa using h
  rw [AsIntegral.div, divOp, common_self, this, cast_of_fits (by cases t <;> decide)]
  simp [Res.bind]

/-- **C85, what holds.** Shifts by a count below the width of the type: left shifts of nonnegative values that stay below 2ⁿ of the promoted type (all for
unsigned 32 and 64 bits) keep the low bits, right shifts round down. -/
theorem C85_shift_partial (t : IT) (x : Int) (k : Nat) (hx : t.Fits x) (hk : k < t.bits) :
    ((t.promote.signed = true → 0 ≤ x ∧ x * 2 ^ k < t.promote.modulus) → AsIntegral.shl t x k = .ok (t.cast (x * 2 ^ k))) ∧
    AsIntegral.shr t x k = .ok (x / 2 ^ k) := by
  have hkf : t.Fits k := by
    cases t <;> simp only [IT.bits] at hk <;> simp only [IT.Fits, IT.min, IT.max] <;> omega
  have hkp : k < t.promote.bits := by
    cases t <;> simp only [IT.bits, IT.promote] at hk ⊢ <;> omega
  have hr : t.Fits (x / 2 ^ k) := by
    have hp : (0 : Int) < 2 ^ k := Int.pow_pos (by omega)
    obtain ⟨h1, h2⟩ := hx
    have e := Int.mul_ediv_add_emod x (2 ^ k)
    have e1 := Int.emod_nonneg x (Int.ne_of_gt hp)
    by_cases hn : 0 ≤ x
    · have a : 0 ≤ x / 2 ^ k := Int.ediv_nonneg hn (by omega)
      have b : x / 2 ^ k ≤ x := Int.ediv_le_self _ hn
      have : t.min ≤ 0 := by cases t <;> decide
      constructor <;> omega
    · have a : x / 2 ^ k < 0 := Int.ediv_neg_of_neg_of_pos (by omega) hp
      have b : x ≤ x / 2 ^ k := by
        rw [Int.le_ediv_iff_mul_le hp]
        have : (-x) * 1 ≤ (-x) * 2 ^ k := Int.mul_le_mul_of_nonneg_left (by omega) (by omega)
        simp only [Int.neg_mul, Int.mul_one] at this
        omega
      have : 0 ≤ t.max := by cases t <;> decide
      constructor <;> omega
  constructor
  · intro h
    simp only [AsIntegral.shl, cast_of_fits hkf, shlOp]
    rw [if_pos ⟨by omega, by omega⟩]
    by_cases hs : t.promote.signed = true
    · simp [hs, h hs, Res.bind, cast_promote]
    · simp [hs, Res.bind, cast_promote]
  · simp only [AsIntegral.shr, cast_of_fits hkf, shrOp]
    rw [if_pos ⟨by omega, by omega⟩]
    simp [Res.bind, cast_of_fits hr]

/-- **C85 fails.** The count is reduced modulo the type first: shifting by 2ⁿ leaves the value as it is. -/
theorem C85_shift_reduced (t : IT) (x : Int) (hx : t.Fits x) (h0 : 0 ≤ x) :
    AsIntegral.shl t x t.modulus = .ok x ∧ AsIntegral.shr t x t.modulus = .ok x := by
  have hc : t.cast t.modulus = 0 := by
    rw [cast_eq_of_fits (by cases t <;> decide)]
    simp
  have hb : (0 : Int) < t.promote.bits := by cases t <;> decide
  have hm : x * 2 ^ (0 : Int).toNat < t.promote.modulus := by
    obtain ⟨_, h2⟩ := hx
    cases t <;> simp [IT.max, IT.promote, IT.modulus] at * <;> omega
  constructor
  · simp only [AsIntegral.shl, hc, shlOp]
    rw [if_pos ⟨by omega, hb⟩]
    by_cases hs : t.promote.signed = true
    · rw [if_pos hs, if_pos ⟨h0, hm⟩]; simp [Res.bind, cast_of_fits hx, cast_of_fits (fits_promote hx)]
    · rw [if_neg hs]; simp [Res.bind, cast_of_fits hx, cast_of_fits (fits_promote hx)]
  · simp only [AsIntegral.shr, hc, shrOp]
    rw [if_pos ⟨by omega, hb⟩]
    simp [Res.bind, cast_of_fits hx]

/-- **C85, shifts exactly**, for every type, value and count of any integer type: the count is reduced to the type first; the shift is
defined exactly if the reduced count is less than the number of bits of the promoted type and, to the left in a signed type, the value is not
negative and no bit is shifted beyond the sign. -/
theorem C85_shift_exact (t : IT) (x y : Int) (hx : t.Fits x) :
    AsIntegral.shl t x y =
      (if 0 ≤ t.cast y ∧ t.cast y < t.promote.bits ∧
          (t ≠ .u32 ∧ t ≠ .u64 → 0 ≤ x ∧ x * 2 ^ (t.cast y).toNat < t.promote.modulus)
        then .ok (t.cast (x * 2 ^ (t.cast y).toNat)) else .ub) ∧
    AsIntegral.shr t x y = if 0 ≤ t.cast y ∧ t.cast y < t.promote.bits then .ok (x / 2 ^ (t.cast y).toNat) else .ub := by
  have hsg : t.promote.signed = true ↔ t ≠ .u32 ∧ t ≠ .u64 := by cases t <;> decide
  constructor
  · simp only [AsIntegral.shl, shlOp]
    by_cases h : 0 ≤ t.cast y ∧ t.cast y < t.promote.bits
    · rw [if_pos h]
      by_cases hs : t.promote.signed = true
      · rw [if_pos hs]
        by_cases h2 : 0 ≤ x ∧ x * 2 ^ (t.cast y).toNat < t.promote.modulus
        · rw [if_pos h2, if_pos ⟨h.1, h.2, fun _ => h2⟩]
          simp [Res.bind, cast_promote]
        · rw [if_neg h2, if_neg (fun c => h2 (c.2.2 (hsg.mp hs)))]
          rfl
      · rw [if_neg hs, if_pos ⟨h.1, h.2, fun c => absurd (hsg.mpr c) hs⟩]
        simp [Res.bind, cast_promote]
    · rw [if_neg h, if_neg (fun c => h ⟨c.1, c.2.1⟩)]
      rfl
  · simp only [AsIntegral.shr, shrOp]
    split
    · have hp : (0 : Int) < 2 ^ (t.cast y).toNat := Int.pow_pos (by omega)
      have hr : t.Fits (x / 2 ^ (t.cast y).toNat) := by
        obtain ⟨h1, h2⟩ := hx
        by_cases hn : 0 ≤ x
        · have a : 0 ≤ x / 2 ^ (t.cast y).toNat := Int.ediv_nonneg hn (by omega)
          have b : x / 2 ^ (t.cast y).toNat ≤ x := Int.ediv_le_self _ hn
          have : t.min ≤ 0 := by cases t <;> decide
          constructor <;> omega
        · have a : x / 2 ^ (t.cast y).toNat < 0 := Int.ediv_neg_of_neg_of_pos (by omega) hp
          have b : x ≤ x / 2 ^ (t.cast y).toNat := by
            rw [Int.le_ediv_iff_mul_le hp]
            have : (-x) * 1 ≤ (-x) * 2 ^ (t.cast y).toNat := Int.mul_le_mul_of_nonneg_left (by omega) (by omega)
            simp only [Int.neg_mul, Int.mul_one] at this
            omega
          have : 0 ≤ t.max := by cases t <;> decide
          constructor <;> omega
      simp [Res.bind, cast_of_fits hr]
    · rfl

example : AsIntegral.shl .i8 3 10 = .ok 0 ∧ AsIntegral.shl .i8 (-1) 1 = .ub ∧ AsIntegral.shr .i8 (-5) 257 = .ok (-3) ∧
    AsIntegral.shl .u32 7 32 = .ub ∧ AsIntegral.shr .i16 7 (-1) = .ub := by decide

/-! ## Concrete cases -/

example : eqInt .u8 256 0 = true ∧ neInt .i32 256 0 = true := by decide
example : gtInt .u8 5 260 = true ∧ geMe 7 7 = false := by decide
example : AsIntegral.arith .add .u8 200 100 = .ok 44 ∧ AsIntegral.arith .mul .u16 65535 65535 = .ub ∧
    AsIntegral.arith .add .i32 2147483647 1 = .ub ∧ AsIntegral.arith .sub .u32 0 1 = .ok 4294967295 := by decide
example : AsIntegral.div .u8 100 256 = .ub ∧ AsIntegral.div .i8 (-128) (-1) = .ok (-128) ∧ AsIntegral.div .i32 (-7) 2 = .ok (-3) := by decide
example : AsIntegral.shl .i32 9 2 = .ok 36 ∧ AsIntegral.shl .u8 200 256 = .ok 200 ∧ AsIntegral.shr .i8 (-5) 1 = .ok (-3) := by decide

/-! The theorems at concrete types and values. -/

example := C84_ge_le_mixed_violated .u8 7 7 (by decide)
example := C84_mixed_exact .i32 .u8 256 0 (by decide) (by decide)
example := C84_eq_and_ne .i32 .u8 256 0 (by decide) (by decide)
example := C84_order_violated .i8 5 (by decide)
example := C85_arith_exact .mul .u16 65535 65535 (by decide)
example := C85_arith_partial .sub .i32 (-7) 2147483641 (by decide) (by decide) (by decide)
example := C85_wraps .add .u8 200 100 (by decide) (by decide) (by decide)
example := C85_u16_mul_ub 65535 65535 (by decide) (by decide) (by decide)
example := C85_div_partial .i8 (-128) 3 (by decide) (by decide) (by decide) (by decide)
example := C85_div_reduced_ub .u8 100 256 (by decide)
example := C85_shift_partial .i16 (-5) 3 (by decide) (by decide)
example := C85_shift_reduced .u8 200 (by decide) (by decide)

end Flame
