import Verif.Circular.Model

/-! # Ring representation lemmas -/

namespace Flame
namespace CArr
variable {α : Type u}

/-- Ring slot `i` places after `h` in a ring of `n`. -/
def slot (n h i : Nat) : Nat := if h + i < n then h + i else h + i - n

/-- The array stores exactly the sequence `l`. -/
structure Rep (c : CArr α) (l : List α) : Prop where
  pos : 0 < c.buf.length
  headLt : c.head < c.buf.length
  len : l.length < c.buf.length
  tailEq : c.tail = slot c.buf.length c.head l.length
  cells : ∀ i a, l[i]? = some a → c.buf[slot c.buf.length c.head i]? = some (.live a)

/-- Slots that do not belong to the stored sequence hold no object. -/
def NoStray (c : CArr α) (l : List α) : Prop :=
  ∀ p, p < c.buf.length → (∀ i, i < l.length → p ≠ slot c.buf.length c.head i) → c.buf[p]? = some .raw

theorem slot_lt {n h i : Nat} (hh : h < n) (hi : i ≤ n) : slot n h i < n ∨ i = n := by
  unfold slot; split <;> omega

theorem slot_inj {n h i j : Nat} (hh : h < n) (hi : i < n) (hj : j < n) (he : slot n h i = slot n h j) : i = j := by
  unfold slot at he; split at he <;> split at he <;> omega

theorem slot_inc {n h i : Nat} (hh : h < n) (hi : i < n) : (CIter.inc n (slot n h i)).toNat = slot n h (i + 1) := by
  unfold CIter.inc slot
  split <;> split <;> split <;> omega

theorem slot_dec {n h i : Nat} (hh : h < n) (hi : i < n) : (CIter.dec n (slot n h (i + 1))).toNat = slot n h i := by
  unfold CIter.dec slot
  split <;> split <;> split <;> omega

theorem updateTerminal_slot {c : CArr α} {i : Nat} (hh : c.head < c.buf.length) (hi : i < c.buf.length) :
    updateTerminal c (slot c.buf.length c.head i + 1) = slot c.buf.length c.head (i + 1) := by
  unfold updateTerminal slot
  split <;> split <;> split <;> omega

theorem size_eq {c : CArr α} {l : List α} (r : Rep c l) : c.size = l.length := by
  have h1 := r.headLt; have h2 := r.len; have h3 := r.tailEq
  unfold slot at h3
  unfold size capacity
  split at h3 <;> split <;> omega

theorem advance_eq {c : CArr α} {p k : Nat} (hp : p < c.buf.length) (hk : k < c.buf.length) :
    advance c p k = slot c.buf.length p k := by
  unfold advance CIter.plusAssign slot
  rw [Int.tmod_eq_of_lt (by omega) (by omega)]
  simp only
  split <;> split <;> omega

theorem walk_ok {b : Cells α} {l : List α} {h : Nat} (hh : h < b.length) (hl : l.length < b.length)
    (hc : ∀ i a, l[i]? = some a → b[slot b.length h i]? = some (.live a)) :
    ∀ k f, k ≤ l.length → k < f →
      walk b f (slot b.length h (l.length - k)) (slot b.length h l.length) = .ok (l.drop (l.length - k)) := by
  intro k
  induction k with
  | zero =>
    intro f _ hf
    obtain ⟨f, rfl⟩ : ∃ g, f = g + 1 := ⟨f - 1, by omega⟩
    simp [walk]
  | succ k ih =>
    intro f hk hf
    obtain ⟨f, rfl⟩ : ∃ g, f = g + 1 := ⟨f - 1, by omega⟩
    have hlt : l.length - (k + 1) < l.length := by omega
    have hne : slot b.length h (l.length - (k + 1)) ≠ slot b.length h l.length := by
      intro he; have := slot_inj hh (by omega) hl he; omega
    have hg := hc _ _ (List.getElem?_eq_getElem hlt)
    rw [walk, if_neg hne, slot_inc hh (by omega), show l.length - (k + 1) + 1 = l.length - k by omega,
      ih f (by omega) (by omega)]
    simp only [Cells.get, hg]
    rw [show l.length - k = l.length - (k + 1) + 1 by omega, ← List.drop_eq_getElem_cons hlt]

theorem walkBack_ok {b : Cells α} {l : List α} {h : Nat} (hh : h < b.length) (hl : l.length < b.length)
    (hc : ∀ i a, l[i]? = some a → b[slot b.length h i]? = some (.live a)) :
    ∀ k f, k ≤ l.length → k < f →
      walkBack b f (CIter.dec b.length (slot b.length h k)).toNat (CIter.dec b.length h).toNat =
        .ok (l.take k).reverse := by
  intro k
  induction k with
  | zero =>
    intro f _ hf
    obtain ⟨f, rfl⟩ : ∃ g, f = g + 1 := ⟨f - 1, by omega⟩
    have : slot b.length h 0 = h := by unfold slot; simp [hh]
    simp [walkBack, this]
  | succ k ih =>
    intro f hk hf
    obtain ⟨f, rfl⟩ : ∃ g, f = g + 1 := ⟨f - 1, by omega⟩
    have hlt : k < l.length := by omega
    have hne : slot b.length h k ≠ (CIter.dec b.length h).toNat := by
      unfold slot CIter.dec; split <;> split <;> omega
    have hg := hc _ _ (List.getElem?_eq_getElem hlt)
    rw [slot_dec hh (by omega), walkBack, if_neg hne, ih f (by omega) (by omega)]
    simp only [Cells.get, hg]
    rw [List.take_succ_eq_append_getElem hlt, List.reverse_append, List.reverse_singleton, List.singleton_append]

theorem toList_ok {c : CArr α} {l : List α} (r : Rep c l) : c.toList = .ok l := by
  unfold toList
  rw [size_eq r, advance_eq r.headLt r.len]
  have h := walk_ok r.headLt r.len r.cells l.length (c.buf.length + 1) (by omega) (by have := r.len; omega)
  have e : slot c.buf.length c.head 0 = c.head := by unfold slot; simp [r.headLt]
  rw [Nat.sub_self, e] at h
  rw [h, List.drop_zero]

theorem toListReverse_ok {c : CArr α} {l : List α} (r : Rep c l) : c.toListReverse = .ok l.reverse := by
  unfold toListReverse
  rw [size_eq r, advance_eq r.headLt r.len]
  have h := walkBack_ok r.headLt r.len r.cells l.length (c.buf.length + 1) (by omega) (by have := r.len; omega)
  have e : (CIter.minusAssign c.buf.length (CIter.dec c.buf.length (slot c.buf.length c.head l.length)).toNat l.length).toNat
      = (CIter.dec c.buf.length c.head).toNat := by
    have h1 := r.headLt; have h2 := r.len
    unfold CIter.minusAssign
    rw [Int.tmod_eq_of_lt (by omega) (by omega)]
    unfold CIter.dec slot
    simp only
    split <;> split <;> split <;> split <;> omega
  simp only [e]
  rw [h, List.take_of_length_le (by omega)]

theorem rep_empty (N : Nat) : Rep (empty N : CArr α) [] := by
  refine ⟨by simp [empty], by simp [empty], by simp [empty], by simp [empty, slot], by simp⟩

theorem noStray_empty (N : Nat) : NoStray (empty N : CArr α) [] := by
  intro p hp _
  simp only [empty, List.length_replicate] at hp
  simp [empty, hp]

theorem push_one {c : CArr α} {l : List α} (r : Rep c l) (hroom : l.length + 1 < c.buf.length) (x : α) :
    ∃ b, c.buf.construct c.tail x = .ok b ∧ b.length = c.buf.length ∧
      Rep { c with buf := b, tail := updateTerminal c (c.tail + 1) } (l ++ [x]) ∧
      (NoStray c l → NoStray { c with buf := b, tail := updateTerminal c (c.tail + 1) } (l ++ [x])) := by
  have hh := r.headLt
  have htl : slot c.buf.length c.head l.length < c.buf.length := by unfold slot; split <;> omega
  refine ⟨c.buf.set c.tail (.live x), ?_, by simp, ?_, ?_⟩
  · simp [Cells.construct, r.tailEq, htl]
  · refine ⟨by simpa using r.pos, by simpa using hh, by simpa using hroom, ?_, ?_⟩
    · simp only [List.length_set, List.length_append, List.length_singleton]
      rw [r.tailEq, updateTerminal_slot hh r.len]
    · intro i a hi
      simp only [List.length_set]
      rw [r.tailEq]
      by_cases he : i < l.length
      · rw [List.getElem?_append_left he] at hi
        rw [List.getElem?_set_ne, r.cells i a hi]
        intro hs; have := slot_inj hh r.len (by omega) hs; omega
      · have hlt := (List.getElem?_eq_some_iff.mp hi).1
        simp only [List.length_append, List.length_singleton] at hlt
        have : i = l.length := by omega
        subst this
        simp at hi; subst hi
        simp [htl]
  · intro ns p hp hout
    simp only [List.length_set] at hp hout ⊢
    simp only [List.length_append, List.length_singleton] at hout
    rw [List.getElem?_set_ne, ns p hp (fun i hi => hout i (by omega))]
    rw [r.tailEq]; exact fun he => hout l.length (by omega) he.symm

theorem pushBack_ok {c : CArr α} {l : List α} (r : Rep c l) (x : α) :
    ∃ c', pushBack c x = .ok c' ∧ c'.buf.length = c.buf.length ∧ c'.own = c.own ∧
      Rep c' (if l.length < c.capacity then l ++ [x] else l) ∧
      (NoStray c l → NoStray c' (if l.length < c.capacity then l ++ [x] else l)) := by
  have hlen := r.len
  unfold pushBack
  rw [size_eq r]
  by_cases h : l.length < c.capacity
  · obtain ⟨b, hb, hbl, hr, hn⟩ := push_one r (by unfold capacity at h; omega) x
    rw [if_pos (by omega), hb]
    exact ⟨_, rfl, hbl, rfl, by simpa [h] using hr, by simpa [h] using hn⟩
  · rw [if_neg (by unfold capacity at *; omega)]
    exact ⟨c, rfl, rfl, rfl, by simpa [h] using r, by simp [h]⟩

theorem pushLoop_ok {c : CArr α} {l : List α} (r : Rep c l) (xs : List α) (h : l.length + xs.length < c.buf.length) :
    ∃ c', pushLoop c xs = .ok c' ∧ c'.buf.length = c.buf.length ∧ c'.own = c.own ∧ Rep c' (l ++ xs) ∧
      (NoStray c l → NoStray c' (l ++ xs)) := by
  induction xs generalizing c l with
  | nil => exact ⟨c, rfl, rfl, rfl, by simpa using r, by simp⟩
  | cons x xs ih =>
    simp only [List.length_cons] at h
    obtain ⟨b, hb, hbl, hr, hn⟩ := push_one r (by omega) x
    obtain ⟨c', h1, h2, h3, h4, h5⟩ := ih hr (by simp only [List.length_append, List.length_singleton]; omega)
    refine ⟨c', ?_, by rw [h2]; exact hbl, h3, by simpa using h4, fun ns => by simpa using h5 (hn ns)⟩
    rw [pushLoop, hb]; exact h1

theorem pushBackRange_ok {c : CArr α} {l : List α} (r : Rep c l) (xs : List α) :
    ∃ c', pushBackRange c xs = .ok c' ∧ c'.buf.length = c.buf.length ∧ c'.own = c.own ∧
      Rep c' (if l.length + xs.length ≤ c.capacity then l ++ xs else l) ∧
      (NoStray c l → NoStray c' (if l.length + xs.length ≤ c.capacity then l ++ xs else l)) := by
  have hlen := r.len
  unfold pushBackRange
  rw [size_eq r]
  by_cases h : l.length + xs.length ≤ c.capacity
  · rw [if_pos (by omega)]
    obtain ⟨c', h1, h2, h3, h4, h5⟩ := pushLoop_ok r xs (by unfold capacity at h; omega)
    exact ⟨c', h1, h2, h3, by simpa [h] using h4, by simpa [h] using h5⟩
  · rw [if_neg (by unfold capacity at *; omega)]
    exact ⟨c, rfl, rfl, rfl, by simpa [h] using r, by simp [h]⟩

theorem popFront_ok {c : CArr α} {l : List α} (r : Rep c l) (triv : Bool) :
    ∃ c', popFront triv c = .ok c' ∧ c'.buf.length = c.buf.length ∧ c'.own = c.own ∧ Rep c' l.tail ∧
      (NoStray c l → NoStray c' l.tail) := by
  have hh := r.headLt; have hlen := r.len
  have e0 : slot c.buf.length c.head 0 = c.head := by unfold slot; simp [hh]
  unfold popFront
  cases l with
  | nil =>
    have : c.tail = c.head := by rw [r.tailEq]; simpa using e0
    rw [if_neg (by simp [this])]
    exact ⟨c, rfl, rfl, rfl, r, id⟩
  | cons a l =>
    simp only [List.length_cons] at hlen
    have hne : c.head ≠ c.tail := by
      rw [r.tailEq]; intro he
      have := slot_inj hh (i := 0) (j := l.length + 1) (by omega) (by omega) (by rw [e0]; simpa using he)
      omega
    have hcell := r.cells 0 a (by simp)
    rw [e0] at hcell
    rw [if_pos hne]
    simp only [Cells.destroy, hcell]
    have hut : updateTerminal c (c.head + 1) = slot c.buf.length c.head 1 := by
      have := updateTerminal_slot (c := c) (i := 0) hh (by omega)
      rwa [e0] at this
    have hs1 : slot c.buf.length c.head 1 < c.buf.length := by unfold slot; split <;> omega
    have hshift : ∀ i, i < c.buf.length - 1 →
        slot c.buf.length (slot c.buf.length c.head 1) i = slot c.buf.length c.head (i + 1) := by
      intro i hi; unfold slot; split <;> split <;> split <;> omega
    refine ⟨_, rfl, by simp, rfl, ⟨by simpa using r.pos, by simpa [hut] using hs1, by simp; omega, ?_, ?_⟩, ?_⟩
    · simp only [List.length_set, List.tail_cons, hut]
      rw [hshift _ (by omega), r.tailEq]; rfl
    · intro i b hi
      simp only [List.length_set, List.tail_cons, hut] at hi ⊢
      have hil := (List.getElem?_eq_some_iff.mp hi).1
      rw [hshift _ (by omega), List.getElem?_set_ne, r.cells (i + 1) b (by simpa using hi)]
      intro he
      have := slot_inj hh (i := 0) (j := i + 1) (by omega) (by omega) (by rw [e0]; exact he)
      omega
    · intro ns p hp hout
      simp only [List.length_set, List.tail_cons, hut] at hp hout ⊢
      by_cases hph : p = c.head
      · subst hph; simp [hh]
      · rw [List.getElem?_set_ne (Ne.symm hph)]
        apply ns p hp
        intro i hi
        cases i with
        | zero => rw [e0]; exact hph
        | succ i =>
          simp only [List.length_cons] at hi
          rw [← hshift i (by omega)]
          exact hout i (by omega)

theorem clean_ok {c : CArr α} {l : List α} (r : Rep c l) {triv : Bool} (h : triv = true ∨ l = []) :
    clean triv c = .ok { c with head := 0, tail := 0 } ∧ Rep { c with head := 0, tail := 0 } [] := by
  refine ⟨?_, ⟨r.pos, r.pos, r.pos, by simp [slot, r.pos], by simp⟩⟩
  unfold clean; rw [toList_ok r]
  cases l with
  | nil => rfl
  | cons a l => rcases h with h | h <;> simp_all

theorem constructList_ok {b : Cells α} {xs : List α} {k : Nat} (h : k + xs.length ≤ b.length) :
    ∃ b', b.constructList k xs = .ok b' ∧ b'.length = b.length ∧
      (∀ i a, xs[i]? = some a → b'[k + i]? = some (.live a)) ∧ (∀ p, p < k ∨ k + xs.length ≤ p → b'[p]? = b[p]?) := by
  induction xs generalizing b k with
  | nil => exact ⟨b, rfl, rfl, by simp, fun _ _ => rfl⟩
  | cons x xs ih =>
    simp only [List.length_cons] at h
    obtain ⟨b', h1, h2, h3, h4⟩ := ih (b := b.set k (.live x)) (k := k + 1) (by simp; omega)
    refine ⟨b', ?_, by simpa using h2, ?_, ?_⟩
    · simp only [Cells.constructList, Cells.construct, if_pos (show k < b.length by omega), Res.ok_bind]
      exact h1
    · intro i a hi
      cases i with
      | zero =>
        simp at hi; subst hi
        rw [Nat.add_zero, h4 k (by omega)]; simp [show k < b.length by omega]
      | succ i =>
        have := h3 i a (by simpa using hi)
        rwa [show k + 1 + i = k + (i + 1) by omega] at this
    · intro p hp
      simp only [List.length_cons] at hp
      rw [h4 p (by omega), List.getElem?_set_ne (by omega)]

end CArr
end Flame
