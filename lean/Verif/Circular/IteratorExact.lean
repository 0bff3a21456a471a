import Verif.Circular.IteratorProps

/-! # Circular iterators moved by any amount (C11), negative ones included -/

namespace Flame
open CIter

/-- The remainder of a negative amount (C++ `%`): between the negated ring size and zero. -/
theorem tmod_neg_range {n k : Int} (hn : 0 < n) (hk : k < 0) : -n < k.tmod n ∧ k.tmod n ≤ 0 := by
  have h : k.tmod n = -((-k) % n) := by
    rw [← Int.tmod_eq_emod_of_nonneg (by omega : 0 ≤ -k), Int.neg_tmod, Int.neg_neg]
  have h1 := Int.emod_nonneg (-k) (show n ≠ 0 by omega)
  have h2 := Int.emod_lt_of_pos (-k) hn
  omega

/-- Modulo the ring size an amount is its remainder. -/
theorem add_tmod_emod (n p k : Int) : (p + k.tmod n) % n = (p + k) % n := by
  have h := Int.mul_tdiv_add_tmod k n
  conv => rhs; rw [← h]
  rw [show p + (n * k.tdiv n + k.tmod n) = p + k.tmod n + n * k.tdiv n by omega, Int.add_mul_emod_self_left]

/-- An integer is its remainder exactly when it lies in the ring. -/
theorem eq_emod_iff {n x : Int} (hn : 0 < n) : x = x % n ↔ 0 ≤ x ∧ x < n := by
  constructor
  · intro h
    have h1 := Int.emod_nonneg x (show n ≠ 0 by omega)
    have h2 := Int.emod_lt_of_pos x hn
    omega
  · intro h; rw [Int.emod_eq_of_lt h.1 h.2]

/-- **C11 (exact), `+=`.** For every ring, position of it and amount of either sign: `+= k` goes to `(p + k) mod n` exactly when
the amount is not negative or its remainder does not reach behind the beginning of the ring; otherwise the position it leaves
is the one before the ring at that distance. -/
theorem C11_plus_exact {n p : Int} (hp : 0 ≤ p ∧ p < n) (k : Int) :
    (plusAssign n p k = (p + k) % n ↔ 0 ≤ k ∨ 0 ≤ p + k.tmod n) ∧
      (¬ (0 ≤ k ∨ 0 ≤ p + k.tmod n) → plusAssign n p k = (p + k) % n - n) := by
  have hn : 0 < n := by omega
  by_cases hk : 0 ≤ k
  · exact ⟨⟨fun _ => .inl hk, fun _ => plusAssign_eq hp hk⟩, fun h => absurd (.inl hk) h⟩
  · have hr := tmod_neg_range hn (by omega : k < 0)
    have he : plusAssign n p k = p + k.tmod n := by
      unfold plusAssign; simp only; rw [if_neg (by omega)]
    rw [he, ← add_tmod_emod]
    constructor
    · rw [eq_emod_iff hn]
      constructor
      · intro h; exact .inr h.1
      · intro h; rcases h with h | h
        · exact absurd h hk
        · exact ⟨h, by omega⟩
    · intro h
      have hlt : p + k.tmod n < 0 := by
        by_cases h0 : 0 ≤ p + k.tmod n
        · exact absurd (.inr h0) h
        · omega
      rw [← Int.add_emod_right, Int.emod_eq_of_lt (a := p + k.tmod n + n) (by omega) (by omega)]
      omega

/-- **C11 (exact), `-=`.** `-= k` goes to `(p - k) mod n` exactly when the amount is not negative or its remainder does not
reach behind the end of the ring; otherwise the position it leaves is the one behind the ring at that distance. -/
theorem C11_minus_exact {n p : Int} (hp : 0 ≤ p ∧ p < n) (k : Int) :
    (minusAssign n p k = (p - k) % n ↔ 0 ≤ k ∨ p - k.tmod n < n) ∧
      (¬ (0 ≤ k ∨ p - k.tmod n < n) → minusAssign n p k = (p - k) % n + n) := by
  have hn : 0 < n := by omega
  by_cases hk : 0 ≤ k
  · exact ⟨⟨fun _ => .inl hk, fun _ => minusAssign_eq hp hk⟩, fun h => absurd (.inl hk) h⟩
  · have hr := tmod_neg_range hn (by omega : k < 0)
    have he : minusAssign n p k = p - k.tmod n := by
      unfold minusAssign; simp only; rw [if_neg (by omega)]
    have hm : (p - k.tmod n) % n = (p - k) % n := by
      have := add_tmod_emod n p (-k)
      rw [Int.neg_tmod] at this
      simpa [Int.sub_eq_add_neg] using this
    rw [he, ← hm]
    constructor
    · rw [eq_emod_iff hn]
      constructor
      · intro h; exact .inr h.2
      · intro h; rcases h with h | h
        · exact absurd h hk
        · exact ⟨by omega, h⟩
    · intro h
      have hge : n ≤ p - k.tmod n := by
        by_cases h0 : p - k.tmod n < n
        · exact absurd (.inr h0) h
        · omega
      have hx : p - k.tmod n = (p - k.tmod n - n) + n := by omega
      rw [hx, Int.add_emod_right, Int.emod_eq_of_lt (a := p - k.tmod n - n) (by omega) (by omega)]

/-- In a ring of 5, going back 2 from 3 by `+= -2` arrives at 1; going back 4 leaves the ring (-1 instead of 4). -/
example : plusAssign 5 3 (-2) = 1 ∧ plusAssign 5 3 (-4) = -1 ∧ (3 + (-4 : Int)) % 5 = 4 ∧ minusAssign 5 3 (-2) = 5 ∧
    minusAssign 5 3 (-1) = 4 := by decide

namespace Flame
open CIter
example := C11_plus_exact (n := 5) (p := 3) (by decide) (-4)
end Flame

end Flame
