import Verif.Utils.Compare

/-! # C48: comparison utilities; C49: `alignedPointer`; C70: small utilities -/

namespace Flame
open Utils

/-- C48: what `isEqual` of two ranges decides: that they agree as far as the shorter one goes. -/
theorem C48_ranges_exact {α : Type} [DecidableEq α] (xs ys : List α) :
    isEqualRange (fun a b => decide (a ≠ b)) xs ys = true ↔ xs.take ys.length = ys.take xs.length := by
  induction xs generalizing ys with
  | nil => simp [isEqualRange]
  | cons x xs ih =>
    cases ys with
    | nil => simp [isEqualRange]
    | cons y ys =>
      by_cases h : x = y
      · subst h; simpa [isEqualRange] using ih ys
      · simp [isEqualRange, h]

/-- C48 (partial: ranges of the same length): `isEqual` is true exactly when the ranges are equal. -/
theorem C48_ranges_partial {α : Type} [DecidableEq α] (xs ys : List α) (h : xs.length = ys.length) :
    isEqualRange (fun a b => decide (a ≠ b)) xs ys = true ↔ xs = ys := by
  rw [C48_ranges_exact, List.take_of_length_le (by omega), List.take_of_length_le (by omega)]

example : isEqualRange (fun a b => decide (a ≠ b)) [1, 2, 3] [1, 2, 3] = true ∧
    isEqualRange (fun a b => decide (a ≠ b)) [1, 2, 3] [1, 2, 4] = false := by decide

/-- C48 violated: a range is "equal" to every extension of it; in particular the empty range to everything. -/
theorem C48_prefix_violated {α : Type} [DecidableEq α] (xs zs : List α) (h : zs ≠ []) :
    isEqualRange (fun a b => decide (a ≠ b)) xs (xs ++ zs) = true ∧
      isEqualRange (fun a b => decide (a ≠ b)) (xs ++ zs) xs = true ∧ xs ≠ xs ++ zs := by
  refine ⟨(C48_ranges_exact _ _).mpr ?_, (C48_ranges_exact _ _).mpr ?_, ?_⟩
  · rw [List.take_of_length_le (by simp)]; simp
  · rw [List.take_of_length_le (l := xs) (by simp)]; simp
  · intro e
    have := congrArg List.length e
    simp only [List.length_append] at this
    have : 0 < zs.length := List.length_pos_iff.mpr h
    omega

example : ([3] : List Nat) ≠ [] := by decide

theorem isEqualLoop_iff {β : Type} [DecidableEq β] (x y : List β) (r : Bool) (h : x.length = y.length) :
    isEqualLoop x y r = true ↔ r = true ∧ x = y := by
  induction x generalizing y r with
  | nil =>
    cases y with
    | nil => cases r <;> simp [isEqualLoop]
    | cons _ _ => simp at h
  | cons a x ih =>
    cases y with
    | nil => simp at h
    | cons b y =>
      cases r with
      | false => simp [isEqualLoop]
      | true =>
        have := ih y (decide (a = b)) (by simpa using h)
        simp [isEqualLoop, this]

/-- C48: `isEqual` of two objects is true exactly when all their bytes agree. -/
theorem C48_bytes {β : Type} [DecidableEq β] (x y : List β) (h : x.length = y.length) : isEqualBytes x y = true ↔ x = y := by
  simp [isEqualBytes, isEqualLoop_iff x y true h]

example : isEqualBytes [1, 2, 3] [1, 2, 4] = false ∧ isEqualBytes [1, 2, 3] [1, 2, 3] = true := by decide

/-! ## C49 -/

/-- Specification: the least multiple of `a` that is not below `p`. -/
def IsLeastAligned (a p q : Nat) : Prop := a ∣ q ∧ p ≤ q ∧ ∀ m, a ∣ m → p ≤ m → q ≤ m

theorem signed64_mod {p : Nat} (hp : p < 2 ^ 64) : (signed64 p % 2 ^ 64).toNat = p := by
  unfold signed64
  split
  · rw [Int.emod_eq_of_lt (by omega) (by omega)]; simp
  · omega

theorem least_exists {a p : Nat} (ha : 0 < a) :
    IsLeastAligned a p (p + if p % a ≠ 0 then a - p % a else 0) ∧ (if p % a ≠ 0 then a - p % a else 0) < a := by
  have hlt := Nat.mod_lt p ha
  have hd : a ∣ p + if p % a ≠ 0 then a - p % a else 0 := by
    split
    · refine ⟨p / a + 1, ?_⟩
      have := Nat.div_add_mod p a
      rw [Nat.mul_add, Nat.mul_one]
      omega
    · rename_i h
      simp only [ne_eq, Decidable.not_not] at h
      exact Nat.dvd_of_mod_eq_zero h
  have hl : (if p % a ≠ 0 then a - p % a else 0) < a := by split <;> omega
  refine ⟨⟨hd, by omega, fun m hm hpm => ?_⟩, hl⟩
  rcases Nat.lt_or_ge m (p + if p % a ≠ 0 then a - p % a else 0) with h | h
  · exfalso
    obtain ⟨c, hc⟩ := hd
    obtain ⟨d, rfl⟩ := hm
    have hcd : d < c := Nat.lt_of_mul_lt_mul_left (a := a) (by omega)
    have hle : a * (d + 1) ≤ a * c := Nat.mul_le_mul_left a hcd
    rw [Nat.mul_add, Nat.mul_one] at hle
    omega
  · exact h

/-- C49 (partial: the least aligned address lies in the same half of the address space): the result is the least multiple of
the alignment that is not below the address. -/
theorem C49_least_partial {a p q : Nat} (ha : 0 < a) (hp : 0 < p) (hq : IsLeastAligned a p q)
    (hh : q < 2 ^ 63 ∨ (2 ^ 63 ≤ p ∧ q < 2 ^ 64)) : alignedPointer a p = .ok q ∧ q < p + a := by
  have hq2 := hq.2.1
  have hp64 : p < 2 ^ 64 := by omega
  obtain ⟨hl, hlt⟩ := least_exists (a := a) (p := p) ha
  have e : q = p + if p % a ≠ 0 then a - p % a else 0 :=
    Nat.le_antisymm (hq.2.2 _ hl.1 hl.2.1) (hl.2.2 _ hq.1 hq.2.1)
  refine ⟨?_, by omega⟩
  unfold alignedPointer
  rw [if_neg (by omega)]
  simp only [signed64_mod hp64]
  generalize hs : (if p % a ≠ 0 then a - p % a else 0) = s at *
  subst e
  have hv : signed64 p = if p < 2 ^ 63 then (p : Int) else (p : Int) - 2 ^ 64 := rfl
  rcases hh with hh | ⟨h1, h2⟩
  · rw [if_pos (by omega)] at hv
    rw [hv, if_pos (by omega), Int.emod_eq_of_lt (by omega) (by omega)]
    congr 1
  · rw [if_neg (by omega)] at hv
    rw [hv, if_pos (by omega)]
    congr 1
    omega

/-- An address that is moved, one that is not, and one in the upper half of the address space. -/
example : IsLeastAligned 8 13 16 ∧ alignedPointer 8 13 = .ok 16 ∧ alignedPointer 8 16 = .ok 16 ∧
    alignedPointer 16 0xFFFF800000000001 = .ok 0xFFFF800000000010 := by
  refine ⟨⟨by decide, by decide, fun m hm h => ?_⟩, by decide +kernel, by decide +kernel, by decide +kernel⟩
  obtain ⟨c, rfl⟩ := hm
  omega

/-- C49: a null pointer stays null. -/
theorem C49_null (a : Nat) : alignedPointer a 0 = .ok 0 := rfl

/-- C49 violated: an address just below the middle of the address space overflows. -/
theorem C49_middle_ub {k p : Nat} (hk : k < 63) (h1 : 2 ^ 63 - 2 ^ k < p) (h2 : p < 2 ^ 63) : alignedPointer (2 ^ k) p = .ub := by
  have hdvd : (2 ^ k : Nat) ∣ 2 ^ 63 := Nat.pow_dvd_pow 2 (by omega)
  have hk' : (2 ^ k : Nat) < 2 ^ 63 := Nat.pow_lt_pow_right (by omega) hk
  have hpos : 0 < 2 ^ k := Nat.two_pow_pos k
  obtain ⟨c, hc⟩ := hdvd
  have hmod : p % 2 ^ k = p - (2 ^ 63 - 2 ^ k) := by
    have hc' : 2 ^ 63 - 2 ^ k = 2 ^ k * (c - 1) := by rw [Nat.mul_sub, Nat.mul_one, ← hc]
    rw [show p = (p - (2 ^ 63 - 2 ^ k)) + 2 ^ k * (c - 1) by omega, Nat.add_mul_mod_self_left, Nat.mod_eq_of_lt (by omega)]
    omega
  unfold alignedPointer
  rw [if_neg (by omega)]
  simp only [signed64_mod (show p < 2 ^ 64 by omega)]
  have hv : signed64 p = (p : Int) := if_pos h2
  have hs : (if p % 2 ^ k ≠ 0 then 2 ^ k - p % 2 ^ k else 0) = 2 ^ 63 - p := by rw [hmod, if_pos (by omega)]; omega
  rw [hv, hs, if_neg (by omega)]

example : 2 ^ 63 - 2 ^ 4 < 2 ^ 63 - 3 ∧ 2 ^ 63 - 3 < 2 ^ 63 := by decide

/-- **C49, exactly**: for every alignment and every address but null, with `q` the least aligned address not below it, the call is undefined
if the address is in the lower half and `q` is not, and otherwise yields `q` modulo the size of the address space. -/
theorem C49_exact {a p q : Nat} (ha : 0 < a) (ha63 : a ≤ 2 ^ 63) (hp : 0 < p) (hp64 : p < 2 ^ 64) (hq : IsLeastAligned a p q) :
    alignedPointer a p = if p < 2 ^ 63 ∧ 2 ^ 63 ≤ q then .ub else .ok (q % 2 ^ 64) := by
  obtain ⟨hl, hlt⟩ := least_exists (a := a) (p := p) ha
  have e : q = p + if p % a ≠ 0 then a - p % a else 0 :=
    Nat.le_antisymm (hq.2.2 _ hl.1 hl.2.1) (hl.2.2 _ hq.1 hq.2.1)
  unfold alignedPointer
  rw [if_neg (by omega)]
  simp only [signed64_mod hp64]
  generalize hs : (if p % a ≠ 0 then a - p % a else 0) = s at *
  subst e
  have hv : signed64 p = if p < 2 ^ 63 then (p : Int) else (p : Int) - 2 ^ 64 := rfl
  by_cases h : p < 2 ^ 63
  · rw [if_pos h] at hv
    rw [hv]
    by_cases h2 : 2 ^ 63 ≤ p + s
    · rw [if_neg (by omega), if_pos ⟨h, h2⟩]
    · rw [if_pos (by omega), if_neg (fun c => h2 c.2)]
      congr 1
  · rw [if_neg h] at hv
    rw [hv, if_pos (by omega), if_neg (fun c => h c.1)]
    congr 1; omega

/-- An alignment that is no power of two, on both sides of the middle. -/
example : IsLeastAligned 24 25 48 ∧ alignedPointer 24 25 = .ok 48 ∧ alignedPointer 24 (2 ^ 63 - 1) = .ub ∧
    alignedPointer 24 (2 ^ 64 - 1) = .ok 8 := by
  refine ⟨⟨by decide, by decide, fun m hm h => ?_⟩, by decide, by decide, by decide⟩
  obtain ⟨c, rfl⟩ := hm
  have : 2 ≤ c := by omega
  omega

/-- C49 violated: an address just below the end of the address space yields the null pointer. -/
theorem C49_end_null {k p : Nat} (hk : k < 63) (h1 : 2 ^ 64 - 2 ^ k < p) (h2 : p < 2 ^ 64) : alignedPointer (2 ^ k) p = .ok 0 := by
  have hdvd : (2 ^ k : Nat) ∣ 2 ^ 64 := Nat.pow_dvd_pow 2 (by omega)
  have hk' : (2 ^ k : Nat) < 2 ^ 63 := Nat.pow_lt_pow_right (by omega) hk
  have hpos : 0 < 2 ^ k := Nat.two_pow_pos k
  obtain ⟨c, hc⟩ := hdvd
  have hmod : p % 2 ^ k = p - (2 ^ 64 - 2 ^ k) := by
    have hc' : 2 ^ 64 - 2 ^ k = 2 ^ k * (c - 1) := by rw [Nat.mul_sub, Nat.mul_one, ← hc]
    rw [show p = (p - (2 ^ 64 - 2 ^ k)) + 2 ^ k * (c - 1) by omega, Nat.add_mul_mod_self_left, Nat.mod_eq_of_lt (by omega)]
    omega
  unfold alignedPointer
  rw [if_neg (by omega)]
  simp only [signed64_mod h2]
  have hv : signed64 p = (p : Int) - 2 ^ 64 := if_neg (by omega)
  have hs : (if p % 2 ^ k ≠ 0 then 2 ^ k - p % 2 ^ k else 0) = 2 ^ 64 - p := by rw [hmod, if_pos (by omega)]; omega
  rw [hv, hs, if_pos (by omega)]
  congr 1
  omega

example : 2 ^ 64 - 2 ^ 4 < 2 ^ 64 - 3 ∧ 2 ^ 64 - 3 < 2 ^ 64 := by decide

/-! ## C70 -/

/-- C70: `copy(dst, src, n)` replaces exactly the first `n` bytes of `dst` by those of `src`, and needs both to have them. -/
theorem C70_copyBytes {β : Type} (n : Nat) (dst src : List β) :
    copyBytes n dst src = if n ≤ dst.length ∧ n ≤ src.length then .ok (src.take n ++ dst.drop n) else .ub := by
  induction n generalizing dst src with
  | zero => simp [copyBytes]
  | succ n ih =>
    cases dst with
    | nil => simp [copyBytes]
    | cons d dst =>
      cases src with
      | nil => simp [copyBytes]
      | cons s src =>
        simp only [copyBytes, ih dst src, List.length_cons, Nat.add_le_add_iff_right]
        by_cases h : n ≤ dst.length ∧ n ≤ src.length
        · simp [if_pos h]
        · simp [if_neg h]

example : copyBytes 2 [1, 2, 3] [7, 8, 9, 10] = .ok [7, 8, 3] := rfl

/-- C70: `length` is the number of elements before the first zero; without one it reads outside the array. -/
theorem C70_length {β : Type} [DecidableEq β] (z : β) (mem : List β) (n : Nat) :
    length z mem n = if z ∈ mem then .ok (n + (mem.takeWhile fun x => decide (x ≠ z)).length) else .ub := by
  induction mem generalizing n with
  | nil => simp [length]
  | cons x xs ih =>
    by_cases h : x = z
    · subst h; simp [length]
    · have h' : z ≠ x := fun e => h e.symm
      simp only [length, ne_eq, h, not_false_eq_true, if_true, ih, List.mem_cons, h', false_or]
      split
      · simp [h]; omega
      · rfl

example : length 0 [5, 6, 0, 7] 0 = .ok 2 := rfl

/-- C70: `maximum` and `minimum` return one of their arguments, which bounds both. -/
theorem C70_extrema (a b : Int) : (maximum a b = a ∨ maximum a b = b) ∧ a ≤ maximum a b ∧ b ≤ maximum a b ∧
    (minimum a b = a ∨ minimum a b = b) ∧ minimum a b ≤ a ∧ minimum a b ≤ b := by
  unfold maximum minimum
  split <;> split <;> omega

end Flame
