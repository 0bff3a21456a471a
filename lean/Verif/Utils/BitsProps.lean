import Verif.Utils.Bits

/-! # C50: bit constants and minimal types; C51: cyclic shifts -/

namespace Flame
open Bits

/-- C50: `UpperedBit<type, k>` has exactly bit `k` set, for every type and every bit of it. -/
theorem C50_upperedBit (w k : Nat) (h : k < w) : ∃ v, upperedBit w k = .ok v ∧ v < 2 ^ w ∧ ∀ i, v.testBit i = decide (i = k) := by
  refine ⟨2 ^ k, ?_, Nat.pow_lt_pow_right (by omega) h, fun i => ?_⟩
  · unfold upperedBit
    simp only
    rw [if_pos (by split <;> omega), Nat.mod_eq_of_lt (Nat.pow_lt_pow_right (by omega) h)]
  · rw [Nat.testBit_two_pow]
    simp only [eq_comm]

example : upperedBit 16 5 = .ok 32 ∧ (5 : Nat) < 16 := by decide

/-- C50, beyond the type: a bit the type does not have gives 0, silently, if the shift fits the promoted type, and a constant expression that is
not one (an error) otherwise. -/
theorem C50_upperedBit_beyond (w k : Nat) (h : w ≤ k) : upperedBit w k = if k < 32 ∧ w < 32 then .ok 0 else .ub := by
  unfold upperedBit
  by_cases hw : w < 32
  · simp only [hw, if_true, and_true]
    split
    · rw [Nat.mod_eq_zero_of_dvd (Nat.pow_dvd_pow 2 h)]
    · rfl
  · simp only [hw, if_false, and_false]
    rw [if_neg (by omega)]

example : upperedBit 8 8 = .ok 0 ∧ upperedBit 8 32 = .ub ∧ upperedBit 64 64 = .ub ∧ upperedBit 32 32 = .ub := by decide

/-- C50: the constants there are, and their types: number `n` of family `f`, for each `n` below `f`, has `f` bits. -/
theorem C50_types (f n : Nat) : ((lookup f n).map fun | .bit w _ => w | .cast w _ _ => w) = if f ∈ [8, 16, 32, 64] ∧ n < f then some f else none := by
  by_cases hf : f ∈ [8, 16, 32, 64]
  · by_cases hn : n < f
    · rw [if_pos ⟨hf, hn⟩]
      have : ∀ f ∈ [8, 16, 32, 64], ∀ n < f, ((lookup f n).map fun | .bit w _ => w | .cast w _ _ => w) = some f := by decide +kernel
      exact this f hf n hn
    · rw [if_neg (fun h => hn h.2)]
      have : ∀ r ∈ table, r.2.1 < r.1 := by decide +kernel
      have hnone : table.find? (fun r => r.1 == f && r.2.1 == n) = none := by
        rw [List.find?_eq_none]
        intro r hr e
        simp only [Bool.and_eq_true, beq_iff_eq] at e
        have := this r hr
        omega
      simp [lookup, hnone]
  · rw [if_neg (fun h => hf h.1)]
    have : ∀ r ∈ table, r.1 ∈ [8, 16, 32, 64] := by decide +kernel
    have hnone : table.find? (fun r => r.1 == f && r.2.1 == n) = none := by
      rw [List.find?_eq_none]
      intro r hr e
      simp only [Bool.and_eq_true, beq_iff_eq] at e
      exact hf (e.1 ▸ this r hr)
    simp [lookup, hnone]

/-- C50 (partial: all but two of the 120 constants): constant number `n` of each family is `2 ^ n`. -/
theorem C50_constants_partial : ∀ f ∈ [8, 16, 32, 64], ∀ n < f, (f, n) ∉ [(64, 61), (64, 63)] → value 4 f n = some (2 ^ n) := by
  decide +kernel

/-- C50 violated: `BIT64_61` and `BIT64_63` are exchanged. -/
theorem C50_swapped : value 4 64 61 = some (2 ^ 63) ∧ value 4 64 63 = some (2 ^ 61) := by decide +kernel

/-- C50: the byte masks. -/
theorem C50_masks : byte0F = some 0x0F ∧ byteFF = some 0xFF := by decide +kernel

/-- C50: `MinimalType<n>` is the narrowest of the four unsigned types that has `n` bits, and `void` when there is none. -/
theorem C50_minimalType (n : Nat) : match minimalType n with
    | some w => w ∈ [8, 16, 32, 64] ∧ n ≤ w ∧ ∀ w' ∈ [8, 16, 32, 64], n ≤ w' → w ≤ w'
    | none => ∀ w' ∈ [8, 16, 32, 64], w' < n := by
  unfold minimalType
  split
  · rename_i h1 h2
    split at h2
    · cases h2; simp; omega
    · split at h2
      · cases h2; simp; omega
      · split at h2
        · cases h2; simp; omega
        · split at h2
          · cases h2; simp; omega
          · cases h2
  · rename_i h2
    split at h2
    · cases h2
    · split at h2
      · cases h2
      · split at h2
        · cases h2
        · split at h2
          · cases h2
          · simp; omega

example : minimalType 9 = some 16 ∧ minimalType 64 = some 64 ∧ minimalType 65 = none := by decide

/-! ## C51 -/

/-- Specification: bit `i` of the result is bit `i + k` (modulo the width) of the value. -/
def IsRotR (w v : Nat) (k : Int) (r : Nat) : Prop :=
  r < 2 ^ w ∧ ∀ i : Nat, i < w → r.testBit i = v.testBit ((i + k) % w).toNat

/-- Rotation to the left is rotation to the right by the opposite. -/
def IsRotL (w v : Nat) (k : Int) (r : Nat) : Prop := IsRotR w v (-k) r

namespace CycleLemmas

theorem num_false (w v : Nat) : num false w v = v := by simp [num]

theorem shr_ok {w v s : Nat} (hv : v < 2 ^ w) (hs : s < promoted w) : shr false w v s = .ok (v / 2 ^ s) := by
  have : v / 2 ^ s ≤ v := Nat.div_le_self _ _
  simp only [shr, if_pos hs, num_false]
  congr 1
  rw [show ((2 : Int) ^ s) = ((2 ^ s : Nat) : Int) by simp, show ((2 : Int) ^ w) = ((2 ^ w : Nat) : Int) by simp,
    ← Int.natCast_ediv, ← Int.natCast_emod, Int.toNat_natCast, Nat.mod_eq_of_lt (by omega)]

theorem shr_or {sg : Bool} {w v s : Nat} : (∃ x, shr sg w v s = .ok x) ∨ shr sg w v s = .ub := by
  unfold shr; split
  · exact .inl ⟨_, rfl⟩
  · exact .inr rfl

theorem shl_or {w v s : Nat} : (∃ x, shl false w v s = .ok x) ∨ shl false w v s = .ub := by
  unfold shl
  split
  · split
    · split
      · exact .inr rfl
      · exact .inl ⟨_, rfl⟩
    · exact .inl ⟨_, rfl⟩
  · exact .inr rfl

theorem shl_ok {w v s : Nat} (hs : s < promoted w) (hb : w < 32 → v * 2 ^ s < 2 ^ 32) : shl false w v s = .ok (v * 2 ^ s % 2 ^ w) := by
  simp only [shl, if_pos hs, num_false]
  by_cases h : w < 32
  · have h32 : promoted w = 32 := if_pos h
    have hb' : ((v : Int) * 2 ^ s) = ((v * 2 ^ s : Nat) : Int) := by simp
    have := hb h
    rw [if_pos (Or.inr h), if_neg (by rw [h32, hb']; omega), hb', show ((2 : Int) ^ w) = ((2 ^ w : Nat) : Int) by simp,
      ← Int.natCast_emod]
    rfl
  · rw [if_neg (by simp [h])]

theorem testBit_big {w v i : Nat} (hv : v < 2 ^ w) (hi : w ≤ i) : v.testBit i = false :=
  Nat.testBit_lt_two_pow (Nat.lt_of_lt_of_le hv (Nat.pow_le_pow_right (by omega) hi))

/-- `v >> r | v << (w - r)`, bit by bit. -/
theorem bits_right {w v r : Nat} (hv : v < 2 ^ w) (hr : r ≤ w) (i : Nat) (hi : i < w) :
    (v / 2 ^ r ||| v * 2 ^ (w - r) % 2 ^ w).testBit i = v.testBit ((i + r) % w) := by
  rw [Nat.testBit_or, Nat.testBit_div_two_pow, Nat.testBit_mod_two_pow, Nat.testBit_mul_two_pow]
  rcases Nat.lt_or_ge (i + r) w with h | h
  · rw [Nat.mod_eq_of_lt h]
    have : ¬ (w - r ≤ i) := by omega
    simp [this, hi]
  · rw [testBit_big hv h]
    have h2 : w - r ≤ i := by omega
    rw [Nat.mod_eq_sub_mod h, Nat.mod_eq_of_lt (by omega)]
    simp [hi, h2]
    congr 1; omega

/-- `v << r | v >> (w - r)`, bit by bit. -/
theorem bits_left {w v r : Nat} (hv : v < 2 ^ w) (hr : r ≤ w) (i : Nat) (hi : i < w) :
    (v * 2 ^ r % 2 ^ w ||| v / 2 ^ (w - r)).testBit i = v.testBit ((i + (w - r)) % w) := by
  have := bits_right hv (show w - r ≤ w by omega) i hi
  rw [Nat.or_comm, ← this]
  congr 3
  rw [show w - (w - r) = r by omega]

theorem or_lt {w a b : Nat} (ha : a < 2 ^ w) (hb : b < 2 ^ w) : a ||| b < 2 ^ w := Nat.or_lt_two_pow ha hb

theorem mod_add {w : Nat} (hw : 0 < w) (i : Nat) (k : Int) : (((i : Int) + k) % w).toNat = (i + (k % w).toNat) % w := by
  have hk := Int.emod_nonneg k (show (w : Int) ≠ 0 by omega)
  have : ((i + (k % w).toNat : Nat) : Int) = i + k % w := by omega
  have h2 : (((i + (k % w).toNat) % w : Nat) : Int) = ((i : Int) + k) % w := by
    rw [Int.natCast_emod, this, Int.add_emod_emod]
  omega

theorem neg_mod {w : Nat} (hw : 0 < w) (k : Int) (h : k % w ≠ 0) : ((-k) % w).toNat = w - (k % w).toNat := by
  have h1 := Int.emod_nonneg k (show (w : Int) ≠ 0 by omega)
  have h2 := Int.emod_lt_of_pos k (show (0 : Int) < w by omega)
  have : (-k) % w = w - k % w := by
    rw [show (-k) = (w - k % w) + w * (-(k / w) - 1) by have := Int.mul_ediv_add_emod k w; rw [Int.mul_sub, Int.mul_neg]; omega,
      Int.add_mul_emod_self_left, Int.emod_eq_of_lt (by omega) (by omega)]
  omega

end CycleLemmas
open CycleLemmas

/-- C51 (8- and 16-bit unsigned types): `>>=` and `<<=` by an argument of the same type are rotations, for all values and shifts. -/
theorem C51_narrow {w v : Nat} (hw : w = 8 ∨ w = 16) (hv : v < 2 ^ w) (k : Int) :
    (∃ r, rotR false w w v k = .ok r ∧ IsRotR w v k r) ∧ ∃ r, rotL false w w v k = .ok r ∧ IsRotL w v k r := by
  have hw0 : 0 < w := by omega
  have hw16 : w ≤ 16 := by omega
  have hp : promoted w = 32 := if_pos (by omega)
  have hr0 := Int.emod_nonneg k (show (w : Int) ≠ 0 by omega)
  have hrw := Int.emod_lt_of_pos k (show (0 : Int) < w by omega)
  generalize hr : (k % w).toNat = r
  have hrw' : r < w := by omega
  have small : ∀ s, s ≤ w → v * 2 ^ s < 2 ^ 32 := by
    intro s hs
    have h1 : v * 2 ^ s < 2 ^ w * 2 ^ s := Nat.mul_lt_mul_of_pos_right hv (Nat.two_pow_pos s)
    rw [← Nat.pow_add] at h1
    exact Nat.lt_of_lt_of_le h1 (Nat.pow_le_pow_right (by omega) (by omega))
  constructor
  · refine ⟨v / 2 ^ r ||| v * 2 ^ (w - r) % 2 ^ w, ?_, or_lt (Nat.lt_of_le_of_lt (Nat.div_le_self _ _) hv) (Nat.mod_lt _ (Nat.two_pow_pos w)),
      fun i hi => ?_⟩
    · simp only [rotR, hr]
      rw [shr_ok hv (by omega), shl_ok (by omega) fun _ => small _ (by omega)]
      rfl
    · rw [bits_right hv (by omega) i hi, mod_add hw0, hr]
  · refine ⟨v * 2 ^ r % 2 ^ w ||| v / 2 ^ (w - r), ?_, or_lt (Nat.mod_lt _ (Nat.two_pow_pos w)) (Nat.lt_of_le_of_lt (Nat.div_le_self _ _) hv),
      fun i hi => ?_⟩
    · simp only [rotL, hr]
      rw [shl_ok (by omega) fun _ => small _ (by omega), shr_ok hv (by omega)]
      rfl
    · rw [bits_left hv (by omega) i hi, mod_add hw0]
      by_cases h : k % w = 0
      · have : (-k) % w = 0 := Int.emod_eq_zero_of_dvd (Int.dvd_neg.mpr (Int.dvd_of_emod_eq_zero h))
        rw [this, show r = 0 by omega]
        simp
      · rw [neg_mod hw0 k h, hr]

example : rotR false 8 8 0b10010110 3 = .ok 0b11010010 ∧ rotL false 8 8 0b10010110 (-3) = .ok 0b11010010 := by decide +kernel

/-- C51 (partial: 32- and 64-bit unsigned types, argument of the same width, and a shift that is not a multiple of the width):
`>>=` and `<<=` are rotations. -/
theorem C51_wide_partial {w v : Nat} (hw : 32 ≤ w) (hv : v < 2 ^ w) (k : Int) (hk : k % w ≠ 0) :
    (∃ r, rotR false w w v k = .ok r ∧ IsRotR w v k r) ∧ ∃ r, rotL false w w v k = .ok r ∧ IsRotL w v k r := by
  have hw0 : 0 < w := by omega
  have hp : promoted w = w := if_neg (by omega)
  have hr0 := Int.emod_nonneg k (show (w : Int) ≠ 0 by omega)
  have hrw := Int.emod_lt_of_pos k (show (0 : Int) < w by omega)
  generalize hr : (k % w).toNat = r
  have hrw' : r < w := by omega
  have hrp : 0 < r := by omega
  constructor
  · refine ⟨v / 2 ^ r ||| v * 2 ^ (w - r) % 2 ^ w, ?_, or_lt (Nat.lt_of_le_of_lt (Nat.div_le_self _ _) hv) (Nat.mod_lt _ (Nat.two_pow_pos w)),
      fun i hi => ?_⟩
    · simp only [rotR, hr]
      rw [shr_ok hv (by omega), shl_ok (by omega) fun h => by omega]
      rfl
    · rw [bits_right hv (by omega) i hi, mod_add hw0, hr]
  · refine ⟨v * 2 ^ r % 2 ^ w ||| v / 2 ^ (w - r), ?_, or_lt (Nat.mod_lt _ (Nat.two_pow_pos w)) (Nat.lt_of_le_of_lt (Nat.div_le_self _ _) hv),
      fun i hi => ?_⟩
    · simp only [rotL, hr]
      rw [shl_ok (by omega) fun h => by omega, shr_ok hv (by omega)]
      rfl
    · rw [bits_left hv (by omega) i hi, mod_add hw0, neg_mod hw0 k hk, hr]

example : rotR false 32 32 0x80000001 4 = .ok 0x18000000 ∧ ((4 : Int) % (32 : Nat) ≠ 0) := by decide +kernel

/-- C51 violated: shifting a 32- or 64-bit value by a multiple of its width is undefined. -/
theorem C51_multiple_ub {w : Nat} (hw : 32 ≤ w) (v : Nat) (k : Int) (hk : k % w = 0) :
    rotR false w w v k = .ub ∧ rotL false w w v k = .ub := by
  have hp : promoted w = w := if_neg (by omega)
  have h : ¬ w < promoted w := by omega
  constructor
  · simp only [rotR, hk, Int.toNat_zero, Nat.sub_zero]
    have : shl false w v w = .ub := by simp only [shl, if_neg h]
    rw [this]
    rcases shr_or (sg := false) (w := w) (v := v) (s := 0) with ⟨x, e⟩ | e <;> rw [e] <;> rfl
  · simp only [rotL, hk, Int.toNat_zero, Nat.sub_zero]
    have : shr false w v w = .ub := by simp only [shr, if_neg h]
    rw [this]
    rcases shl_or (w := w) (v := v) (s := 0) with ⟨x, e⟩ | e <;> rw [e] <;> rfl

example : (64 : Int) % (32 : Nat) = 0 := by decide

/-- C51 violated: with an argument of a narrower type (for example an `int` for a 64-bit value) the width used is the
argument's: the lowest bit moves to the wrong place. -/
theorem C51_argument_width_violated {w a r : Nat} (hw : 32 ≤ w) (ha : a < w) (hr : 0 < r) (hra : r < a) :
    rotR false w a 1 r = .ok (2 ^ (a - r)) ∧ ¬ IsRotR w 1 r (2 ^ (a - r)) := by
  have hp : promoted w = w := if_neg (by omega)
  have h1 : (1 : Nat) < 2 ^ w := Nat.one_lt_two_pow (by omega)
  constructor
  · have hm : (((r : Nat) : Int) % (a : Nat)).toNat = r := by
      rw [Int.emod_eq_of_lt (by omega) (by omega)]; rfl
    simp only [rotR, hm]
    rw [shr_ok h1 (by omega), shl_ok (by omega) fun h => by omega]
    rw [Nat.div_eq_of_lt (Nat.one_lt_two_pow (by omega)), Nat.one_mul, Nat.mod_eq_of_lt (Nat.pow_lt_pow_right (by omega) (by omega))]
    simp
  · intro h
    have := h.2 (a - r) (by omega)
    rw [Nat.testBit_two_pow_self, mod_add (by omega), Int.emod_eq_of_lt (by omega) (by omega), Int.toNat_natCast,
      Nat.sub_add_cancel (by omega), Nat.mod_eq_of_lt ha] at this
    rw [testBit_big (w := 1) (by omega) (by omega)] at this
    cases this

example : (32 : Nat) < 64 ∧ rotR false 64 32 1 4 = .ok (2 ^ 28) := by decide +kernel

/-- C51 violated: for a signed type every rotation of a negative value is undefined. -/
theorem C51_signed_negative_ub {w v : Nat} (hv : v < 2 ^ w) (hn : 2 ^ (w - 1) ≤ v) (k : Int) :
    rotR true w w v k = .ub ∧ rotL true w w v k = .ub := by
  have hneg : num true w v < 0 := by
    simp only [num, hn, and_self, if_true]
    have : ((2 : Int) ^ w) = ((2 ^ w : Nat) : Int) := by simp
    omega
  have hs : ∀ s, shl true w v s = .ub := by
    intro s
    simp only [shl]
    split
    · rw [if_pos (Or.inl trivial), if_pos (Or.inl hneg)]
    · rfl
  constructor
  · simp only [rotR, hs]
    rcases shr_or (sg := true) (w := w) (v := v) (s := (k % w).toNat) with ⟨x, e⟩ | e <;> rw [e] <;> rfl
  · simp only [rotL, hs]
    rfl

example := C51_signed_negative_ub (w := 8) (v := 0x81) (by decide) (by decide) 3
example : 2 ^ (32 - 1) ≤ 0x80000001 ∧ 0x80000001 < 2 ^ 32 := by decide

/-- C51: two numbers of `w` bits with the same bits are equal: rotations are unique, and rotating back restores the value. -/
theorem C51_inverse {w v r s : Nat} (hw : 0 < w) (hv : v < 2 ^ w) (k : Int) (h1 : IsRotR w v k r) (h2 : IsRotL w r k s) : s = v := by
  apply Nat.eq_of_testBit_eq
  intro i
  rcases Nat.lt_or_ge i w with hi | hi
  · rw [h2.2 i hi, h1.2 _ (by have := Int.emod_lt_of_pos ((i : Int) + -k) (show (0 : Int) < w by omega); omega)]
    have h0 := Int.emod_nonneg ((i : Int) + -k) (show (w : Int) ≠ 0 by omega)
    congr 1
    rw [Int.toNat_of_nonneg h0, Int.emod_add_emod, show (i : Int) + -k + k = i by omega, Int.emod_eq_of_lt (by omega) (by omega)]
    rfl
  · rw [testBit_big hv hi, testBit_big h2.1 hi]

example : IsRotR 8 1 3 32 ∧ IsRotL 8 32 3 1 := by
  constructor <;> refine ⟨by decide, fun i hi => ?_⟩ <;>
    (have : i ∈ List.range 8 := List.mem_range.mpr hi; revert this; revert i; decide +kernel)

/-- C51: the binary operators rotate by the argument's value modulo the width (partial for the wide types as above). -/
theorem C51_binary {w v : Nat} (hw : w = 8 ∨ w = 16 ∨ w = 32 ∨ w = 64) (hv : v < 2 ^ w) (k : Int) (hk : 32 ≤ w → k % w ≠ 0) :
    (∃ r, shiftR w v k = .ok r ∧ IsRotR w v k r) ∧ ∃ r, shiftL w v k = .ok r ∧ IsRotL w v k r := by
  have hmod : (k % 2 ^ w) % w = k % w := by
    apply Int.emod_emod_of_dvd
    rcases hw with rfl | rfl | rfl | rfl <;> decide
  have hneg : ∀ i : Nat, ((i : Int) + -(k % 2 ^ w)) % w = (i + -k) % w := by
    intro i
    rw [← Int.sub_eq_add_neg, ← Int.sub_eq_add_neg, Int.sub_emod, hmod, ← Int.sub_emod]
  have main : (∃ r, rotR false w w v (k % 2 ^ w) = .ok r ∧ IsRotR w v (k % 2 ^ w) r) ∧
      ∃ r, rotL false w w v (k % 2 ^ w) = .ok r ∧ IsRotL w v (k % 2 ^ w) r := by
    rcases Nat.lt_or_ge w 32 with h | h
    · exact C51_narrow (by omega) hv _
    · exact C51_wide_partial h hv _ (by rw [hmod]; exact hk h)
  obtain ⟨⟨r, hr, hr'⟩, s, hs, hs'⟩ := main
  refine ⟨⟨r, hr, hr'.1, fun i hi => ?_⟩, s, hs, hs'.1, fun i hi => ?_⟩
  · rw [hr'.2 i hi, Int.add_emod, hmod, ← Int.add_emod]
  · rw [hs'.2 i hi, hneg]

example : shiftR 16 0x1234 260 = .ok 0x4123 := by decide +kernel

/-- **C51, signed types exactly.**  A signed value of 32 bits or more that is not negative is rotated, by a count that is no multiple of the width, exactly if the
bits that the left shift moves stay below the sign's neighbour: to the right if the value is below `2 ^ r`, to the left if it is below `2 ^ (w - r)`.  Every other
case is undefined. -/
theorem C51_signed_exact {w v : Nat} (hw : 32 ≤ w) (hv : v < 2 ^ (w - 1)) (k : Int) (hk : k % w ≠ 0) :
    (v < 2 ^ (k % w).toNat → ∃ x, rotR true w w v k = .ok x ∧ IsRotR w v k x) ∧ (2 ^ (k % w).toNat ≤ v → rotR true w w v k = .ub) ∧
    (v < 2 ^ (w - (k % w).toNat) → ∃ x, rotL true w w v k = .ok x ∧ IsRotL w v k x) ∧ (2 ^ (w - (k % w).toNat) ≤ v → rotL true w w v k = .ub) := by
  have hvw : v < 2 ^ w := Nat.lt_of_lt_of_le hv (Nat.pow_le_pow_right (by omega) (by omega))
  obtain ⟨⟨x, hx, hx'⟩, y, hy, hy'⟩ := C51_wide_partial hw hvw k hk
  have hp : promoted w = w := if_neg (by omega)
  have hr0 := Int.emod_nonneg k (show (w : Int) ≠ 0 by omega)
  have hrw := Int.emod_lt_of_pos k (show (0 : Int) < w by omega)
  have hnum : num true w v = v := by
    unfold num
    rw [if_neg (by omega)]
  have hnumf : num false w v = v := by
    unfold num
    rw [if_neg (by simp)]
  have hshr : ∀ s, shr true w v s = shr false w v s := by
    intro s
    unfold shr
    rw [hnum, hnumf]
  have hcast : ∀ s : Nat, ((v : Int) * 2 ^ s) = ((v * 2 ^ s : Nat) : Int) := by intro s; simp
  have hcw : ((2 : Int) ^ w) = ((2 ^ w : Nat) : Int) := by simp
  have hshl : ∀ s t, s < w → s + t = w → shl true w v s = if v < 2 ^ t then shl false w v s else .ub := by
    intro s t hs ht
    have eT : shl true w v s = if (v : Int) < 0 ∨ ((2 ^ w : Nat) : Int) ≤ ((v * 2 ^ s : Nat) : Int) then .ub
        else .ok (((v * 2 ^ s : Nat) : Int) % ((2 ^ w : Nat) : Int)).toNat := by
      unfold shl
      rw [hp, if_pos hs, if_pos (Or.inl rfl), hnum, hcast, hcw]
    have eF : shl false w v s = .ok (v * 2 ^ s % 2 ^ w) := by
      unfold shl
      rw [hp, if_pos hs, if_neg (by simp; omega)]
    rw [eT, eF]
    have key : v < 2 ^ t ↔ v * 2 ^ s < 2 ^ w := by
      rw [← ht, Nat.add_comm, Nat.pow_add]
      exact (Nat.mul_lt_mul_right (Nat.two_pow_pos s)).symm
    generalize v * 2 ^ s = P at *
    generalize 2 ^ w = W at *
    by_cases h : v < 2 ^ t
    · have := key.1 h
      rw [if_pos h, if_neg (by omega), ← Int.natCast_emod, Int.toNat_natCast]
    · have : ¬ P < W := fun h1 => h (key.2 h1)
      rw [if_neg h, if_pos (by omega)]
  generalize hr : (k % w).toNat = r at *
  have hr1 : 0 < r := by omega
  have hr2 : r < w := by omega
  have e1 := hshl (w - r) r (by omega) (by omega)
  have e2 := hshl r (w - r) (by omega) (by omega)
  refine ⟨fun h => ⟨x, ?_, hx'⟩, fun h => ?_, fun h => ⟨y, ?_, hy'⟩, fun h => ?_⟩
  · rw [if_pos h] at e1
    simp only [rotR, hr] at hx ⊢
    rw [hshr, e1]; exact hx
  · rw [if_neg (by omega)] at e1
    simp only [rotR, hr, e1]
    rcases shr_or (sg := true) (w := w) (v := v) (s := r) with ⟨u, e⟩ | e <;> rw [e] <;> rfl
  · rw [if_pos h] at e2
    simp only [rotL, hr] at hy ⊢
    rw [hshr, e2]; exact hy
  · rw [if_neg (by omega)] at e2
    simp only [rotL, hr, e2]
    rfl

example := C51_signed_exact (w := 32) (v := 6) (by decide) (by decide) 3 (by decide)
example : rotR true 32 32 6 3 = .ok 0xC0000000 ∧ rotR true 32 32 6 2 = .ub ∧ rotL true 32 32 6 29 = .ok 0xC0000000 ∧ rotL true 32 32 6 30 = .ub := by
  decide +kernel

/-- **C51, narrow signed types.**  8- and 16-bit signed values that are not negative are rotated by every count (the arithmetic is done in `int`). -/
theorem C51_signed_narrow {w v : Nat} (hw : w = 8 ∨ w = 16) (hv : v < 2 ^ (w - 1)) (k : Int) :
    (∃ r, rotR true w w v k = .ok r ∧ IsRotR w v k r) ∧ ∃ r, rotL true w w v k = .ok r ∧ IsRotL w v k r := by
  have hvw : v < 2 ^ w := Nat.lt_of_lt_of_le hv (Nat.pow_le_pow_right (by omega) (by omega))
  have hnum : num true w v = num false w v := by
    unfold num
    rw [if_neg (by omega), if_neg (by simp)]
  have hshr : ∀ s, shr true w v s = shr false w v s := by
    intro s
    unfold shr
    rw [hnum]
  have hshl : ∀ s, shl true w v s = shl false w v s := by
    intro s
    have h32 : w < 32 := by omega
    simp only [shl, hnum, h32, or_true, if_true]
  have eR : rotR true w w v k = rotR false w w v k := by simp only [rotR, hshr, hshl]
  have eL : rotL true w w v k = rotL false w w v k := by simp only [rotL, hshr, hshl]
  rw [eR, eL]
  exact C51_narrow hw hvw k

example := C51_signed_narrow (w := 16) (v := 0x1234) (Or.inr rfl) (by decide) 5

/-- **C51 violated, `int` arguments of narrow types.**  An 8- or 16-bit unsigned value shifted by an `int` below `32 - w` is not rotated: to the right it becomes 0, or the
call is undefined if a bit stays, to the left it is an ordinary shift; by 0 it is undefined. -/
theorem C51_int_argument_violated {w v r : Nat} (hw : w = 8 ∨ w = 16) (hv : v < 2 ^ w) (hr : r ≤ 32 - w) :
    rotR false w 32 v r = (if r ≠ 0 ∧ v < 2 ^ r then .ok 0 else .ub) ∧ rotL false w 32 v r = (if r ≠ 0 then .ok (v * 2 ^ r % 2 ^ w) else .ub) := by
  have hp : promoted w = 32 := if_pos (by omega)
  have h32 : w < 32 := by omega
  have hm : (((r : Nat) : Int) % ((32 : Nat) : Int)).toNat = r := by
    rw [Int.emod_eq_of_lt (by omega) (by omega)]; rfl
  by_cases h0 : r = 0
  · subst h0
    have e1 : shl false w v 32 = .ub := by simp [shl, hp]
    have e2 : shr false w v 32 = .ub := by simp [shr, hp]
    simp only [rotR, rotL, hm, Nat.sub_zero, e1, e2, ne_eq, not_true, false_and, if_false]
    constructor
    · rcases shr_or (sg := false) (w := w) (v := v) (s := 0) with ⟨x, e⟩ | e <;> rw [e] <;> rfl
    · rcases shl_or (w := w) (v := v) (s := 0) with ⟨x, e⟩ | e <;> rw [e] <;> rfl
  have h1 : v * 2 ^ r < 2 ^ 32 := by
    have h1 : v * 2 ^ r < 2 ^ w * 2 ^ r := Nat.mul_lt_mul_of_pos_right hv (Nat.two_pow_pos r)
    rw [← Nat.pow_add] at h1
    exact Nat.lt_of_lt_of_le h1 (Nat.pow_le_pow_right (by omega) (by omega))
  simp only [rotR, rotL, hm, h0, ne_eq, not_false_eq_true, true_and, if_true]
  constructor
  · rw [shr_ok hv (by omega)]
    have key : v < 2 ^ r ↔ v * 2 ^ (32 - r) < 2 ^ 32 := by
      have e : (2 : Nat) ^ 32 = 2 ^ r * 2 ^ (32 - r) := by rw [← Nat.pow_add]; congr 1; omega
      rw [e]
      exact (Nat.mul_lt_mul_right (Nat.two_pow_pos _)).symm
    by_cases h : v < 2 ^ r
    · rw [if_pos h, shl_ok (by omega) fun _ => key.1 h, Nat.div_eq_of_lt h]
      have hz : v * 2 ^ (32 - r) % 2 ^ w = 0 := by
        apply Nat.mod_eq_zero_of_dvd
        exact Nat.dvd_trans (Nat.pow_dvd_pow 2 (by omega)) (Nat.dvd_mul_left _ _)
      rw [hz]
      rfl
    · rw [if_neg h]
      have hub : shl false w v (32 - r) = .ub := by
        have hn : num false w v = v := by
          unfold num
          rw [if_neg (by simp)]
        have hc : ((v : Int) * 2 ^ (32 - r)) = ((v * 2 ^ (32 - r) : Nat) : Int) := by simp
        have hge : ¬ v * 2 ^ (32 - r) < 2 ^ 32 := fun h1 => h (key.2 h1)
        unfold shl
        rw [hp, if_pos (by omega), if_pos (Or.inr h32), hn, hc, if_pos]
        right
        generalize v * 2 ^ (32 - r) = P at hge
        have h2 : ((2 : Int) ^ 32) = 4294967296 := by decide
        have h3 : ((2 : Nat) ^ 32) = 4294967296 := by decide
        rw [h2]
        rw [h3] at hge
        omega
      rw [hub]
      rfl
  · rw [shl_ok (by omega) fun _ => h1, shr_ok hv (by omega)]
    have hd : v / 2 ^ (32 - r) = 0 := Nat.div_eq_of_lt (Nat.lt_of_lt_of_le hv (Nat.pow_le_pow_right (by omega) (by omega)))
    rw [hd]
    simp

example := C51_int_argument_violated (w := 8) (v := 0x96) (r := 3) (Or.inl rfl) (by decide) (by decide)

end Flame
