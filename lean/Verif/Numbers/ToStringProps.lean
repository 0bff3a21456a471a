import Verif.Numbers.ToString
import Verif.String.Props

/-!
# Properties of integer to string conversion (C25)
-/

namespace Flame
namespace ToStrSpec

/-- `t` is the canonical decimal text of the natural number `v`: digits only, the digits' value is `v`, no leading zero. -/
def NatText (v : Nat) (t : List (BitVec 8)) : Prop :=
  ∃ ds : List Nat, t = ds.map (fun d => BitVec.ofNat 8 (48 + d)) ∧ (∀ d ∈ ds, d < 10) ∧ ds ≠ [] ∧
    ds.foldl (fun a d => a * 10 + d) 0 = v ∧ (ds.head? = some 0 → ds = [0])

/-- Canonical decimal text of an integer: a minus sign exactly for negative numbers. -/
def IntText (v : Int) (t : List (BitVec 8)) : Prop :=
  if v < 0 then ∃ u, t = 45#8 :: u ∧ NatText v.natAbs u else NatText v.natAbs t

/-- `k` is the number of decimal digits of `v`. -/
def Digits (v k : Nat) : Prop := 0 < k ∧ v < 10 ^ k ∧ (k = 1 ∨ 10 ^ (k - 1) ≤ v)

end ToStrSpec

open ToStr ToStrSpec

namespace ToStr

theorem checker_ok (v : Nat) (hv : v < 18446744073709551616) (f : Nat) : ∀ (k mn mx : Nat), f + k = 19 → 0 < k →
    mn + 1 = 10 ^ (k - 1) → mx + 1 = 10 ^ k → (k = 1 ∨ mn < v) →
    Digits v (checker (f + 1) mn mx k v) ∧ checker (f + 1) mn mx k v ≤ 20 := by
  have p18 : (10 : Nat) ^ 18 = 1000000000000000000 := by simp only [Nat.reducePow]
  have p19 : (10 : Nat) ^ 19 = 10000000000000000000 := by simp only [Nat.reducePow]
  have p20 : (10 : Nat) ^ 20 = 100000000000000000000 := by simp only [Nat.reducePow]
  have p64 : (2 : Nat) ^ 64 = 18446744073709551616 := by simp only [Nat.reducePow]
  induction f with
  | zero =>
    intro k mn mx hk hk0 h1 h2 hlow
    have hk19 : k = 19 := by omega
    have e18 : k - 1 = 18 := by omega
    rw [e18, p18] at h1
    rw [hk19, p19] at h2
    rw [checker, if_pos ⟨by omega, by omega⟩]
    split
    · exact ⟨⟨hk0, by rw [hk19, p19]; omega, Or.inr (by rw [e18, p18]; omega)⟩, by omega⟩
    · exact ⟨⟨by omega, by rw [hk19, p20]; omega, Or.inr (by rw [Nat.add_sub_cancel, hk19, p19]; omega)⟩, by omega⟩
  | succ f ih =>
    intro k mn mx hk hk0 h1 h2 hlow
    have hlt : (10 : Nat) ^ (k - 1) < 10 ^ 18 := Nat.pow_lt_pow_right (by omega) (by omega)
    have hle : (10 : Nat) ^ (k + 1) ≤ 10 ^ 19 := Nat.pow_le_pow_right (by omega) (by omega)
    have hk1 : (10 : Nat) ^ (k + 1) = 10 ^ k * 10 := Nat.pow_succ ..
    rw [p18] at hlt
    rw [p19] at hle
    have hmn : k = 1 → mn = 0 := by
      intro h; subst h; simp at h1; exact h1
    rw [checker, if_neg (by omega)]
    split
    · refine ⟨⟨hk0, by omega, ?_⟩, by omega⟩
      rcases hlow with h | h
      · exact Or.inl h
      · exact Or.inr (by omega)
    · rename_i hn
      have hm : mx < v := by omega
      have e2 : (mx * 10 + 9) % 2 ^ 64 = mx * 10 + 9 := by
        rw [p64]; exact Nat.mod_eq_of_lt (by omega)
      rw [e2]
      exact ih (k + 1) mx (mx * 10 + 9) (by omega) (by omega) (by rw [Nat.add_sub_cancel]; exact h2) (by omega) (Or.inr hm)

theorem digitCount_ok (v : Nat) (hv : v < 2 ^ 64) : Digits v (digitCount v) ∧ digitCount v ≤ 20 :=
  checker_ok v (by simpa using hv) 18 1 0 9 rfl (by omega) rfl rfl (Or.inl rfl)

theorem digits_unique {v j k : Nat} (hj : Digits v j) (hk : Digits v k) : j = k := by
  obtain ⟨a1, a2, a3⟩ := hj
  obtain ⟨b1, b2, b3⟩ := hk
  have key : ∀ a b, 0 < a → v < 10 ^ a → (b = 1 ∨ 10 ^ (b - 1) ≤ v) → b ≤ a := by
    intro a b ha h1 h2
    rcases h2 with h2 | h2
    · omega
    · have := (Nat.pow_lt_pow_iff_right (a := 10) (by omega)).mp (Nat.lt_of_le_of_lt h2 h1)
      omega
  have := key j k a1 a2 b3
  have := key k j b1 b2 a3
  omega

theorem decLoop_ok (n d : Nat) (h : d * 10 ^ n < 2 ^ 64) : decLoop n d = d * 10 ^ n := by
  induction n generalizing d with
  | zero => simp [decLoop]
  | succ n ih =>
    rw [Nat.pow_succ] at h
    have hp : 0 < 10 ^ n := Nat.pow_pos (by omega)
    have e : d * 10 * 10 ^ n = d * (10 ^ n * 10) := by rw [Nat.mul_assoc, Nat.mul_comm 10]
    have hlt : d * 10 < 2 ^ 64 := Nat.lt_of_le_of_lt (Nat.le_mul_of_pos_right _ hp) (by rw [e]; exact h)
    rw [decLoop, Nat.mod_eq_of_lt hlt, ih _ (by rw [e]; exact h), e, Nat.pow_succ]

/-- The digits of `v`, most significant first. -/
def digits : Nat → Nat → List Nat
  | 0, _ => []
  | n + 1, v => v / 10 ^ n :: digits n (v % 10 ^ n)

theorem digits_lt : ∀ (n v : Nat), v < 10 ^ n → ∀ d ∈ digits n v, d < 10
  | 0, _, _ => by simp [digits]
  | n + 1, v, h => by
    have hp : 0 < 10 ^ n := Nat.pow_pos (by omega)
    intro d hd
    rcases List.mem_cons.mp hd with rfl | hd
    · rw [Nat.pow_succ] at h
      exact Nat.div_lt_of_lt_mul h
    · exact digits_lt n _ (Nat.mod_lt _ hp) d hd

theorem digits_val : ∀ (n v a : Nat), v < 10 ^ n → (digits n v).foldl (fun a d => a * 10 + d) a = a * 10 ^ n + v
  | 0, v, a, h => by simp at h; simp [digits, h]
  | n + 1, v, a, h => by
    have hp : 0 < 10 ^ n := Nat.pow_pos (by omega)
    rw [digits, List.foldl_cons, digits_val n _ _ (Nat.mod_lt _ hp), Nat.pow_succ, Nat.add_mul]
    have := Nat.div_add_mod v (10 ^ n)
    rw [Nat.mul_comm (10 ^ n)] at this
    rw [Nat.add_assoc, this, Nat.mul_assoc, Nat.mul_comm 10]

@[simp] theorem digits_length : ∀ (n v : Nat), (digits n v).length = n
  | 0, _ => rfl
  | n + 1, v => by simp [digits, digits_length n]

theorem digits_text {v k : Nat} (h : Digits v k) : NatText v ((digits k v).map (fun d => BitVec.ofNat 8 (48 + d))) := by
  obtain ⟨h1, h2, h3⟩ := h
  refine ⟨digits k v, rfl, digits_lt k v h2, ?_, by rw [digits_val k v 0 h2]; simp, ?_⟩
  · intro e
    have := congrArg List.length e
    simp at this; omega
  · intro e
    cases k with
    | zero => omega
    | succ k =>
      simp only [digits, List.head?_cons, Option.some.injEq] at e
      rcases h3 with h3 | h3
      · have : k = 0 := by omega
        subst this
        simp at e
        simp [digits, e]
      · simp only [Nat.add_sub_cancel] at h3
        have hp : 0 < 10 ^ k := Nat.pow_pos (by omega)
        have := Nat.div_pos h3 hp
        omega

theorem wrap_id {t : Ty} {v : Int} (hb : 0 < t.bits) (h : t.has v) : t.wrap v = v := by
  unfold Ty.has at h
  unfold Ty.wrap
  split at h <;> rename_i hs
  · rw [if_pos hs, BitVec.toInt_ofInt]
    have e : (2 ^ t.bits : Nat) = 2 * 2 ^ (t.bits - 1) := by
      rw [show t.bits = t.bits - 1 + 1 by omega, Nat.pow_succ, Nat.mul_comm]; simp
    rw [e]
    have hh : ((2 ^ (t.bits - 1) : Nat) : Int) = 2 ^ (t.bits - 1) := by simp
    apply Int.bmod_eq_of_le <;> rw [Int.natCast_mul, hh] <;> omega
  · rw [if_neg hs]
    exact Int.emod_eq_of_lt h.1 h.2

theorem digitLoop_ok {t : Ty} (hb : 0 < t.bits) (hb' : t.bits ≤ 64) (f n v : Nat) (hv : v < 10 ^ n) (hn : n ≤ 20) (ht : t.has v)
    {s : Str (BitVec 8)} {xs : List (BitVec 8)} (hs : Str.Full 0#8 s xs) (hc : 2 ≤ s.cap) :
    ∃ s', digitLoop t (f + 1) n (10 ^ (n - 1)) v s = .ok s' ∧
      Str.Full 0#8 s' (xs ++ (digits n v).map (fun d => BitVec.ofNat 8 (48 + d))) := by
  induction n generalizing v s xs with
  | zero => exact ⟨s, rfl, by simpa [digits] using hs⟩
  | succ n ih =>
    have hp : 0 < 10 ^ n := Nat.pow_pos (by omega)
    have hv64 : (v : Int) < 2 ^ 64 := by
      unfold Ty.has at ht
      split at ht
      · have : (2 ^ (t.bits - 1) : Int) ≤ 2 ^ 64 := by
          have : (2 : Nat) ^ (t.bits - 1) ≤ 2 ^ 64 := Nat.pow_le_pow_right (by omega) (by omega)
          exact_mod_cast this
        omega
      · have : (2 ^ t.bits : Int) ≤ 2 ^ 64 := by
          have : (2 : Nat) ^ t.bits ≤ 2 ^ 64 := Nat.pow_le_pow_right (by omega) (by omega)
          exact_mod_cast this
        omega
    have hu : u64 v = v := by
      unfold u64
      rw [Int.emod_eq_of_lt (by omega) hv64]; simp
    obtain ⟨s1, a, b⟩ := Str.pushBackMove_ok hs (BitVec.ofNat 8 (48 + v / 10 ^ n)) hc f
    have hmod : v % 10 ^ n ≤ v := Nat.mod_le _ _
    have ht' : t.has ((v % 10 ^ n : Nat) : Int) := by
      unfold Ty.has at ht ⊢
      split at ht <;> rename_i h <;> simp only [h, if_true, if_false] <;> constructor
      · have : (0 : Int) ≤ 2 ^ (t.bits - 1) := Int.pow_nonneg (by decide)
        omega
      · omega
      · omega
      · exact Int.lt_of_le_of_lt (by exact_mod_cast hmod) ht.2
    have hc' : 2 ≤ s1.cap := by have := b.lt; simp at this; omega
    obtain ⟨s2, a2, b2⟩ := ih (v % 10 ^ n) (Nat.mod_lt _ hp) (by omega) ht' b hc'
    refine ⟨s2, ?_, by simpa [digits] using b2⟩
    have hd : 10 ^ n / 10 = 10 ^ (n - 1) ∨ n = 0 := by
      cases n with
      | zero => exact Or.inr rfl
      | succ n => left; rw [Nat.pow_succ]; simp
    simp only [Nat.add_sub_cancel, digitLoop, hu]
    rw [if_neg (by omega), a]
    simp only [Res.ok_bind]
    rw [wrap_id hb ht']
    rcases hd with hd | hd
    · rw [hd]; exact a2
    · subst hd
      simpa [digitLoop] using a2

end ToStr

theorem has_u64 {t : Ty} (hb' : t.bits ≤ 64) {v : Int} (h : t.has v) : -(2 ^ 63 : Int) ≤ v ∧ v < 2 ^ 64 := by
  have e1 : (2 ^ (t.bits - 1) : Int) ≤ 2 ^ 63 := by
    have : (2 : Nat) ^ (t.bits - 1) ≤ 2 ^ 63 := Nat.pow_le_pow_right (by omega) (by omega)
    exact_mod_cast this
  have e2 : (2 ^ t.bits : Int) ≤ 2 ^ 64 := by
    have : (2 : Nat) ^ t.bits ≤ 2 ^ 64 := Nat.pow_le_pow_right (by omega) (by omega)
    exact_mod_cast this
  unfold Ty.has at h
  split at h <;> omega

/-- `-v` for a negative value other than the least one. -/
theorem neg_ok {t : Ty} (hb : 0 < t.bits) (hs : t.signed = true) {v : Int} (h : t.has v) (hneg : v < 0) (hmin : v ≠ -(2 ^ (t.bits - 1) : Int)) :
    t.neg v = .ok (v.natAbs : Int) ∧ t.has (v.natAbs : Int) ∧ ((v.natAbs : Int) % 2 ^ t.bits).toNat = v.natAbs := by
  have hh := h
  unfold Ty.has at h
  rw [if_pos hs] at h
  have hna : (v.natAbs : Int) = -v := by omega
  have hb2 : (2 ^ (t.bits - 1) : Int) < 2 ^ t.bits := by
    have : (2 : Nat) ^ (t.bits - 1) < 2 ^ t.bits := Nat.pow_lt_pow_right (by omega) (by omega)
    exact_mod_cast this
  have hhas : t.has (v.natAbs : Int) := by
    unfold Ty.has
    rw [if_pos hs]
    omega
  refine ⟨?_, hhas, ?_⟩
  · unfold Ty.neg
    rw [if_neg hmin]
    split
    · rw [← hna, wrap_id hb hhas]
    · rw [hna]
  · rw [Int.emod_eq_of_lt (by omega) (by omega)]; simp

/-- **C25 (size).** For every value of every integer type (except the least value of a signed type) the computed buffer size is
the number of decimal digits plus one for a minus sign. -/
theorem C25_buffer_size (t : Ty) (hb : 0 < t.bits) (hb' : t.bits ≤ 64) (v : Int) (h : t.has v)
    (hmin : t.signed = true → v ≠ -(2 ^ (t.bits - 1) : Int)) :
    ∃ k, Digits v.natAbs k ∧ bufferSize t v = .ok (if v < 0 then k + 1 else k) := by
  have h64 := has_u64 hb' h
  refine ⟨digitCount v.natAbs, (digitCount_ok _ (by omega)).1, ?_⟩
  by_cases hn : v < 0
  · have hs : t.signed = true := by
      by_cases hs : t.signed = true
      · exact hs
      · unfold Ty.has at h; rw [if_neg hs] at h; omega
    obtain ⟨a, _, c⟩ := neg_ok hb hs h hn (hmin hs)
    simp only [bufferSize, hs, hn, and_self, if_true, a, Res.ok_bind, c, Nat.add_comm]
  · simp only [bufferSize, hn, and_false, if_false, Res.ok.injEq]
    congr 1; omega

example : Ty.has ⟨true, 32⟩ (-100500) ∧ bufferSize ⟨true, 32⟩ (-100500) = .ok 7 ∧ Digits 100500 6 := by
  refine ⟨by decide, by decide, by decide, by decide, Or.inr (by decide)⟩

/-- **C25_partial.** For every integer type of up to 64 bits and every value except `0..9` and the least value of a signed
type: the conversion completes, and the characters (and the C string) are the canonical decimal text, whose length is
the computed buffer size.  Missing: one-digit values (undefined, below) and the least values (undefined or wrong, below). -/
theorem C25_to_string_partial (t : Ty) (hb : 0 < t.bits) (hb' : t.bits ≤ 64) (v : Int) (h : t.has v) (hdig : v < 0 ∨ 9 < v)
    (hmin : t.signed = true → v ≠ -(2 ^ (t.bits - 1) : Int)) (f : Nat) :
    ∃ s text, convert t (f + 1) v = .ok s ∧ Str.chars s = .ok text ∧ Str.cString 0#8 s = .ok text ∧ IntText v text ∧
      bufferSize t v = .ok text.length := by
  obtain ⟨k, hk, hsize⟩ := C25_buffer_size t hb hb' v h hmin
  have h64 := has_u64 hb' h
  have hk20 : k ≤ 20 := by
    have := digitCount_ok v.natAbs (by omega)
    rw [digits_unique hk this.1]; exact this.2
  have hdec : decLoop (k - 1) 1 = 10 ^ (k - 1) := by
    have : (10 : Nat) ^ (k - 1) ≤ 10 ^ 19 := Nat.pow_le_pow_right (by omega) (by omega)
    rw [decLoop_ok _ _ (by rw [Nat.one_mul]; simp only [Nat.reducePow] at this ⊢; omega), Nat.one_mul]
  have hnz : ∀ c ∈ (digits k v.natAbs).map (fun d => BitVec.ofNat 8 (48 + d)), c ≠ 0#8 := by
    intro c hc
    obtain ⟨d, hd, rfl⟩ := List.mem_map.mp hc
    have := digits_lt k _ hk.2.1 d hd
    intro e
    have := congrArg BitVec.toNat e
    simp at this; omega
  by_cases hn : v < 0
  · have hs : t.signed = true := by
      by_cases hs : t.signed = true
      · exact hs
      · unfold Ty.has at h; rw [if_neg hs] at h; omega
    obtain ⟨a, c, _⟩ := neg_ok hb hs h hn (hmin hs)
    rw [if_pos hn] at hsize
    obtain ⟨s0, r1, r2, r3⟩ := Str.resize_ok (z := 0#8) (s := (Str.empty : Str (BitVec 8))) (xs := []) (Or.inr ⟨rfl, rfl⟩) (n := k + 1) (by omega)
    have hr : Str.reserve 0#8 (Str.empty : Str (BitVec 8)) (k + 1) = .ok s0 := by
      simpa [Str.reserve, Str.empty] using r1
    have hcap : 2 ≤ s0.cap := by have := hk.1; simp [Str.empty] at r3; omega
    obtain ⟨s1, p1, p2⟩ := Str.pushBackMove_ok r2 45#8 hcap f
    have hcap1 : 2 ≤ s1.cap := by have := p2.lt; simp at this; omega
    obtain ⟨s2, d1, d2⟩ := digitLoop_ok hb hb' f k v.natAbs hk.2.1 hk20 c p2 hcap1
    have hz : ∀ c ∈ [45#8] ++ (digits k v.natAbs).map (fun d => BitVec.ofNat 8 (48 + d)), c ≠ 0#8 := by
      intro c hc
      rcases List.mem_append.mp hc with hc | hc
      · simp at hc; subst hc; decide
      · exact hnz c hc
    simp only [List.nil_append] at d2
    refine ⟨s2, _, ?_, d2.chars, d2.cString hz, ?_, ?_⟩
    · simp only [convert, hsize, Res.ok_bind, hr, hs, hn, and_self, if_true, p1, a, Nat.add_sub_cancel]
      rw [hdec]; exact d1
    · unfold IntText
      rw [if_pos hn]
      exact ⟨_, rfl, digits_text hk⟩
    · simp [hsize]
  · have hv9 : 9 < v := by omega
    rw [if_neg hn] at hsize
    have hk2 : 2 ≤ k := by
      have h1 := hk.1
      have h2 := hk.2.1
      by_cases h' : k = 1
      · subst h'; simp at h2; omega
      · omega
    obtain ⟨s0, r1, r2, r3⟩ := Str.resize_ok (z := 0#8) (s := (Str.empty : Str (BitVec 8))) (xs := []) (Or.inr ⟨rfl, rfl⟩) (n := k) (by omega)
    have hr : Str.reserve 0#8 (Str.empty : Str (BitVec 8)) k = .ok s0 := by
      simpa [Str.reserve, Str.empty] using r1
    have hcap : 2 ≤ s0.cap := by simp [Str.empty] at r3; omega
    have hva : (v.natAbs : Int) = v := by omega
    obtain ⟨s2, d1, d2⟩ := digitLoop_ok hb hb' f k v.natAbs hk.2.1 hk20 (by rw [hva]; exact h) r2 hcap
    rw [hva] at d1
    simp only [List.nil_append] at d2
    refine ⟨s2, _, ?_, d2.chars, d2.cString hnz, ?_, ?_⟩
    · simp only [convert, hsize, Res.ok_bind, hr, hn, and_false, if_false]
      rw [hdec]; exact d1
    · unfold IntText
      rw [if_neg hn]
      exact digits_text hk
    · simp [hsize]

/-- Hypotheses met at both ends: the largest 64-bit value and the least but one. -/
example : Ty.has ⟨false, 64⟩ (2 ^ 64 - 1) ∧ Ty.has ⟨true, 64⟩ (-(2 ^ 63) + 1) ∧ (-(2 ^ 63) + 1 : Int) ≠ -(2 ^ 63) ∧
    IntText (-12) [45#8, 49#8, 50#8] := by
  refine ⟨by decide, by decide, by decide, ?_⟩
  exact ⟨[49#8, 50#8], rfl, [1, 2], by decide, by decide, by decide, by decide, by decide⟩

/-- **C25, violated.** Converting any value `0..9` writes one byte past the allocation: the buffer is reserved without room for
the terminator and a capacity of one does not grow. -/
theorem C25_one_digit_violated (t : Ty) (v : Int) (h0 : 0 ≤ v) (h9 : v ≤ 9) (f : Nat) : convert t (f + 1) v = .ub := by
  have hn : ¬ v < 0 := by omega
  have hsz : digitCount v.toNat = 1 := by
    have : digitCount v.toNat = if v.toNat ≤ 9 then 1 else digitCount v.toNat := by
      split
      · simp only [digitCount, checker]
        rw [if_neg (by decide), if_pos (by omega)]
      · rfl
    rw [this, if_pos (by omega)]
  obtain ⟨s0, r1, r2, r3⟩ := Str.resize_ok (z := 0#8) (s := (Str.empty : Str (BitVec 8))) (xs := []) (Or.inr ⟨rfl, rfl⟩) (n := 1) (by omega)
  have hr : Str.reserve 0#8 (Str.empty : Str (BitVec 8)) 1 = .ok s0 := by simpa [Str.reserve, Str.empty] using r1
  have hcap : s0.cap < 2 := by simp [Str.empty] at r3; omega
  simp only [convert, bufferSize, hn, and_false, if_false, Res.ok_bind, hsz, hr, decLoop, digitLoop]
  rw [if_neg (by decide), Str.pushBackMove_small_ub (Or.inl r2) _ hcap]
  rfl

example : (0 : Int) ≤ 7 ∧ (7 : Int) ≤ 9 := by decide

/-- **C25, violated.** The least value of a 32- or 64-bit signed type: negating it overflows. -/
theorem C25_least_violated (b : Nat) (hb : 32 ≤ b) (f : Nat) : convert ⟨true, b⟩ f (-(2 ^ (b - 1))) = .ub := by
  have hp : (0 : Int) < 2 ^ (b - 1) := by
    have : (0 : Nat) < 2 ^ (b - 1) := Nat.pow_pos (by omega)
    exact_mod_cast this
  have hneg : (-(2 ^ (b - 1)) : Int) < 0 := by omega
  simp only [convert, bufferSize, hneg, and_self, if_true, Ty.neg]
  rw [if_neg (by omega)]
  simp

example : 32 ≤ 64 := by decide

/-- **C25, violated.** The least value of an 8- or 16-bit signed type: the text has the right length but wrong characters. -/
theorem C25_least_narrow_violated :
    (convert ⟨true, 8⟩ 5 (-128) >>= Str.chars) = .ok [45#8, 138#8, 56#8, 56#8] ∧
    (convert ⟨true, 16⟩ 5 (-32768) >>= Str.chars) = .ok [45#8, 247#8, 56#8, 56#8, 52#8, 56#8] := by
  decide +kernel

end Flame
