import Verif.Circular.Iterator

/-! # Properties of circular and reverse iterators (C11, C12, C13) -/

namespace Flame
open CIter

/-- `f` applied `k` times. -/
def times {σ : Type u} (f : σ → σ) : Nat → σ → σ
  | 0, s => s
  | k + 1, s => times f k (f s)

/-! ## C11 -/

theorem plusAssign_eq {n p : Int} (hp : 0 ≤ p ∧ p < n) {k : Int} (hk : 0 ≤ k) : plusAssign n p k = (p + k) % n := by
  unfold plusAssign
  have hn : 0 < n := by omega
  rw [Int.tmod_eq_emod_of_nonneg hk]
  have h1 := Int.emod_nonneg k (show n ≠ 0 by omega)
  have h2 := Int.emod_lt_of_pos k hn
  have h3 : (p + k) % n = (p + k % n) % n := by rw [Int.add_emod, Int.emod_eq_of_lt hp.1 hp.2]
  rw [h3]
  simp only
  split
  · have : p + k % n = (p - n + k % n) + n := by omega
    rw [this, Int.add_emod_right, Int.emod_eq_of_lt (a := p - n + k % n) (by omega) (by omega)]
  · rw [Int.emod_eq_of_lt (a := p + k % n) (by omega) (by omega)]

theorem minusAssign_eq {n p : Int} (hp : 0 ≤ p ∧ p < n) {k : Int} (hk : 0 ≤ k) : minusAssign n p k = (p - k) % n := by
  unfold minusAssign
  have hn : 0 < n := by omega
  rw [Int.tmod_eq_emod_of_nonneg hk]
  have h1 := Int.emod_nonneg k (show n ≠ 0 by omega)
  have h2 := Int.emod_lt_of_pos k hn
  have h3 : (p - k) % n = (p - k % n) % n := by rw [Int.sub_emod, Int.emod_eq_of_lt hp.1 hp.2]
  rw [h3]
  simp only
  split
  · have : p - k % n = (n - (0 - p + k % n)) + (-1) * n := by omega
    rw [this, Int.add_mul_emod_self_right, Int.emod_eq_of_lt (a := n - (0 - p + k % n)) (by omega) (by omega)]
  · rw [Int.emod_eq_of_lt (a := p - k % n) (by omega) (by omega)]

theorem inc_eq {n p : Int} (hp : 0 ≤ p ∧ p < n) : inc n p = (p + 1) % n := by
  unfold inc; split
  · rename_i h; rw [h, Int.emod_self]
  · rw [Int.emod_eq_of_lt (by omega) (by omega)]

theorem dec_eq {n p : Int} (hp : 0 ≤ p ∧ p < n) : dec n p = (p - 1) % n := by
  unfold dec; split
  · rename_i h
    rw [h, show (-1 : Int) = (n - 1) + (-1) * n by omega, Int.add_mul_emod_self_right, Int.emod_eq_of_lt (by omega) (by omega)]
  · rw [Int.emod_eq_of_lt (by omega) (by omega)]

theorem inc_mem {n p : Int} (hp : 0 ≤ p ∧ p < n) : 0 ≤ inc n p ∧ inc n p < n := by
  unfold inc; split <;> omega

/-- **C11 (partial).** For every ring size, position in the ring and non-negative amounts: positions stay in the ring, `++`
and `--` (prefix) are inverse, `+= k` is addition modulo the ring size and equals `k` times `++`, `-= k` undoes `+= k`
and equals `k` times `--`.
Missing: the postfix forms and negative amounts, which leave the ring (`C11_postfix_violated`, `C11_negative_violated`). -/
theorem C11_circular_arithmetic_partial {n p : Int} (hp : 0 ≤ p ∧ p < n) (k : Nat) :
    (0 ≤ plusAssign n p k ∧ plusAssign n p k < n) ∧ (0 ≤ minusAssign n p k ∧ minusAssign n p k < n) ∧
      dec n (inc n p) = p ∧ inc n (dec n p) = p ∧
      plusAssign n p k = (p + k) % n ∧ minusAssign n p k = (p - k) % n ∧
      times (inc n) k p = plusAssign n p k ∧ times (dec n) k p = minusAssign n p k ∧
      minusAssign n (plusAssign n p k) k = p ∧ plusAssign n (minusAssign n p k) k = p := by
  have hn : 0 < n := by omega
  have hk : (0 : Int) ≤ k := by omega
  have hpl := plusAssign_eq hp hk
  have hmi := minusAssign_eq hp hk
  have hpr : 0 ≤ plusAssign n p k ∧ plusAssign n p k < n := by
    rw [hpl]; exact ⟨Int.emod_nonneg _ (by omega), Int.emod_lt_of_pos _ hn⟩
  have hmr : 0 ≤ minusAssign n p k ∧ minusAssign n p k < n := by
    rw [hmi]; exact ⟨Int.emod_nonneg _ (by omega), Int.emod_lt_of_pos _ hn⟩
  have e1 : ∀ (k : Nat) (q : Int), 0 ≤ q ∧ q < n → times (inc n) k q = (q + k) % n := by
    intro k
    induction k with
    | zero => intro q hq; simp [times, Int.emod_eq_of_lt hq.1 hq.2]
    | succ k ih =>
      intro q hq
      rw [times, ih _ (inc_mem hq), inc_eq hq, Int.emod_add_emod]
      congr 1; push_cast; omega
  have hdr : ∀ q, 0 ≤ q ∧ q < n → 0 ≤ dec n q ∧ dec n q < n := by
    intro q hq; unfold dec; split <;> omega
  have e2 : ∀ (k : Nat) (q : Int), 0 ≤ q ∧ q < n → times (dec n) k q = (q - k) % n := by
    intro k
    induction k with
    | zero => intro q hq; simp [times, Int.emod_eq_of_lt hq.1 hq.2]
    | succ k ih =>
      intro q hq
      rw [times, ih _ (hdr q hq), dec_eq hq, Int.emod_sub_emod]
      congr 1; push_cast; omega
  refine ⟨hpr, hmr, ?_, ?_, hpl, hmi, ?_, ?_, ?_, ?_⟩
  · unfold dec inc; split <;> split <;> omega
  · unfold dec inc; split <;> split <;> omega
  · rw [e1 k p hp, hpl]
  · rw [e2 k p hp, hmi]
  · rw [minusAssign_eq hpr hk, hpl, Int.emod_sub_emod, Int.add_sub_cancel, Int.emod_eq_of_lt hp.1 hp.2]
  · rw [plusAssign_eq hmr hk, hmi, Int.emod_add_emod, Int.sub_add_cancel, Int.emod_eq_of_lt hp.1 hp.2]

example : (0 : Int) ≤ 3 ∧ (3 : Int) < 5 := by decide

/-- **C11 violated** by postfix `++`/`--`: they move to the right slot everywhere but at the last (first) slot, where
they leave the ring. -/
theorem C11_postfix_violated {n p : Int} (hp : 0 ≤ p ∧ p < n) :
    (incPostfix n p = (p + 1) % n ↔ p ≠ n - 1) ∧ (decPostfix n p = (p - 1) % n ↔ p ≠ 0) ∧
    (incPostfix n (n - 1) = n) ∧ (decPostfix n 0 = -1) := by
  rw [← inc_eq hp, ← dec_eq hp]
  refine ⟨?_, ?_, ?_, ?_⟩
  · unfold incPostfix inc; split <;> omega
  · unfold decPostfix dec; split <;> omega
  · unfold incPostfix; omega
  · unfold decPostfix; omega

/-- **C11 violated** for negative amounts: `it += -k` with `k` larger than the position (and smaller than the ring) leaves
the ring instead of wrapping. -/
theorem C11_negative_violated {n p k : Int} (hp : 0 ≤ p ∧ p < n) (hk : p < k ∧ k < n) : plusAssign n p (-k) < 0 := by
  unfold plusAssign
  have : (-k).tmod n = -k := by rw [Int.neg_tmod, Int.tmod_eq_of_lt (by omega) hk.2]
  rw [this]
  simp only
  split <;> omega

example : ((0 : Int) ≤ 1 ∧ (1 : Int) < 5) ∧ ((1 : Int) < 2 ∧ (2 : Int) < 5) := by decide

/-! ## C12 -/

/-- **C12 (partial)**: `it[k]` is the slot reached by `it + k` exactly when the move does not wrap, or in the accidental
case `p + 2v = 2n` (`v = k mod n`). -/
theorem C12_index_iff_partial {n p : Int} (hp : 0 ≤ p ∧ p < n) {k : Int} (hk : 0 ≤ k) :
    index n p k = (p + k) % n ↔ p + k % n < n ∨ (p + k % n > n ∧ p + 2 * (k % n) = 2 * n) := by
  have h := plusAssign_eq hp hk
  have hn : 0 < n := by omega
  rw [← h]
  unfold index plusAssign
  rw [Int.tmod_eq_emod_of_nonneg hk]
  have h1 := Int.emod_nonneg k (show n ≠ 0 by omega)
  have h2 := Int.emod_lt_of_pos k hn
  simp only
  split <;> split <;> omega

example : ((0 : Int) ≤ 3 ∧ (3 : Int) < 5) ∧ (0 : Int) ≤ 1 := by decide

/-- **C12 violated**: with `p + k = n` the access goes to `range.end()`, outside the ring. -/
theorem C12_index_out_of_ring {n p : Int} (hp : 0 < p ∧ p < n) : index n p (n - p) = n := by
  unfold index
  rw [Int.tmod_eq_of_lt (by omega) (by omega)]
  simp only
  split <;> omega

example : (0 : Int) < 3 ∧ (3 : Int) < 5 := by decide

/-- **C12 violated**, wrong slot inside the ring: once `p + v` (`v = k mod n`) is past the end, `it[k]` is slot `n - v`, whatever `p` is, where
`it + k` is slot `p + v - n`. -/
theorem C12_index_wrong_slot {n p k : Int} (hp : 0 ≤ p ∧ p < n) (hk : 0 ≤ k) (hw : n < p + k % n) (hne : p + 2 * (k % n) ≠ 2 * n) :
    index n p k = n - k % n ∧ 0 ≤ index n p k ∧ index n p k < n ∧ plusAssign n p k = p + k % n - n ∧ index n p k ≠ plusAssign n p k := by
  have h1 := Int.emod_nonneg k (show n ≠ 0 by omega)
  have h2 := Int.emod_lt_of_pos k (show 0 < n by omega)
  have hi : index n p k = n - k % n := by
    unfold index
    rw [Int.tmod_eq_emod_of_nonneg hk]
    simp only
    split <;> omega
  have ha : plusAssign n p k = p + k % n - n := by
    unfold plusAssign
    rw [Int.tmod_eq_emod_of_nonneg hk]
    simp only
    split <;> omega
  rw [hi, ha]
  omega

-- ring of 5, position 3: `it[3]` is slot 2 instead of 1
example : index 5 3 3 = 2 ∧ plusAssign 5 3 3 = 1 := by decide

/-! ## C13 -/

/-- **C13 (partial)**: moving reverse iterators: `+= k` is `k` steps along the reverse traversal, `-= k` undoes it, indexing
agrees with moving; and the comparisons of *different* positions order them as the traversal visits them (a higher
offset is visited first). -/
theorem C13_reverse_partial (a b : Int) (k : Nat) :
    times RIter.inc k a = RIter.plusAssign a k ∧ times RIter.dec k a = RIter.minusAssign a k ∧ RIter.minusAssign (RIter.plusAssign a k) k = a ∧
      RIter.index a k = RIter.plusAssign a k ∧
      (a ≠ b → (RIter.lt a b = true ↔ b < a) ∧ (RIter.gt a b = true ↔ a < b) ∧
        (RIter.le a b = true ↔ b < a) ∧ (RIter.ge a b = true ↔ a < b)) := by
  have e : ∀ (k : Nat) (a : Int), times RIter.inc k a = a - k := by
    intro k
    induction k with
    | zero => intro a; simp [times]
    | succ k ih => intro a; rw [times, ih, RIter.inc]; push_cast; omega
  have e' : ∀ (k : Nat) (a : Int), times RIter.dec k a = a + k := by
    intro k
    induction k with
    | zero => intro a; simp [times]
    | succ k ih => intro a; rw [times, ih, RIter.dec]; push_cast; omega
  refine ⟨e k a, e' k a, by simp [RIter.minusAssign, RIter.plusAssign], rfl, fun h => ?_⟩
  simp only [RIter.lt, RIter.gt, RIter.le, RIter.ge, decide_eq_true_eq]
  refine ⟨?_, ?_, ?_, ?_⟩ <;> constructor <;> intro h1 <;> omega

example : (3 : Int) ≠ 4 := by decide

/-- **C13 violated** on equal positions: every reverse iterator is "less" and "greater" than itself and neither `<=` nor
`>=` itself. -/
theorem C13_reverse_compare_violated (a : Int) :
    RIter.lt a a = true ∧ RIter.gt a a = true ∧ RIter.le a a = false ∧ RIter.ge a a = false := by
  simp [RIter.lt, RIter.gt, RIter.le, RIter.ge]

/-- **C13 violated**: after `k > 0` steps `b - a` is `-k`, not `k`. -/
theorem C13_reverse_difference_violated (a : Int) (k : Nat) (_hk : 0 < k) :
    RIter.diff (times RIter.inc k a) a = -(k : Int) := by
  rw [(C13_reverse_partial a a k).1]
  simp only [RIter.diff, RIter.plusAssign]; omega

example : 0 < 2 := by decide

namespace Flame
example := C11_postfix_violated (n := 5) (p := 3) (by decide)
end Flame

end Flame
