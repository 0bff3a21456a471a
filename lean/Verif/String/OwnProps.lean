import Verif.String.Own
import Verif.String.Props

/-!
# C138: string operations with the string's own characters
-/

namespace Flame
open Str StrSpec

namespace Raw
variable {α : Type u}

/-- Copying within an allocation is writing the values that are read, where `xs` accounts for values already overwritten. -/
theorem copyDown_eq_wrList {xs : List α} : ∀ {b : Raw α} {src dst : Nat}, dst + xs.length ≤ b.length →
    (∀ k, k < xs.length → (if dst ≤ src + k ∧ src < dst then some (xs[src + k - dst]?) else b[src + k]?) = some (xs[k]?)) →
    copyDown b src dst xs.length = wrList b dst xs := by
  induction xs with
  | nil => intros; rfl
  | cons x xs ih =>
    intro b src dst hl h
    simp only [List.length_cons] at hl
    have h0 := h 0 (by simp)
    rw [if_neg (by omega)] at h0
    simp only [Nat.add_zero, List.getElem?_cons_zero] at h0
    simp only [List.length_cons, copyDown, wrList, rd_ok h0, wr_ok x (show dst < b.length by omega), Res.ok_bind]
    refine ih (by simp; omega) fun k hk => ?_
    have := h (k + 1) (by simpa using hk)
    simp only [List.getElem?_cons_succ] at this
    by_cases hs : src < dst
    · by_cases he : dst ≤ src + k
      · rw [if_pos ⟨by omega, hs⟩] at this
        rw [if_pos ⟨by omega, by omega⟩, ← this, show src + (k + 1) - dst = (src + k - dst) + 1 by omega, List.getElem?_cons_succ]
        congr 2; omega
      · rw [if_neg (by omega)]
        by_cases hd : src + 1 + k = dst
        · rw [if_pos (by omega), show src + (k + 1) - dst = 0 by omega] at this
          simp only [List.getElem?_cons_zero] at this
          rw [hd, List.getElem?_set, if_pos rfl, if_pos (by omega), this]
        · rw [if_neg (by omega)] at this
          rw [List.getElem?_set, if_neg (by omega), ← this]
          congr 1; omega
    · rw [if_neg (by omega)] at this
      rw [if_neg (by omega), List.getElem?_set, if_neg (by omega), ← this]
      congr 1; omega

end Raw

variable {α : Type} [DecidableEq α] {z : α}

namespace Str

theorem scanOwn_ok : ∀ {xs : List α} {r : Raw α}, (∀ c ∈ xs, c ≠ z) → (∀ i, i ≤ xs.length → r[i]? = some ((xs ++ [z])[i]?)) →
    scanOwn z r = .ok xs.length := by
  intro xs
  induction xs with
  | nil =>
    intro r _ h
    have h0 := h 0 (by simp)
    cases r with
    | nil => simp at h0
    | cons a r => simp at h0; subst h0; simp [scanOwn]
  | cons x xs ih =>
    intro r hx h
    have h0 := h 0 (by simp)
    cases r with
    | nil => simp at h0
    | cons a r =>
      simp at h0; subst h0
      have := ih (r := r) (fun c hc => hx c (by simp [hc])) fun i hi => by
        have := h (i + 1) (by simpa using hi)
        simpa using this
      simp [scanOwn, hx x (by simp), this]

theorem Full.drop {s : Str α} {l : List α} (h : Full z s l) {k : Nat} (hk : k ≤ l.length) :
    ∀ i, i ≤ (l.drop k).length → (s.buf.drop k)[i]? = some ((l.drop k ++ [z])[i]?) := by
  intro i hi
  simp only [List.length_drop] at hi
  rw [List.getElem?_drop, h.cells (k + i) (by omega), getElem?_snoc, getElem?_snoc, List.getElem?_drop, List.length_drop]
  by_cases h1 : k + i < l.length
  · rw [if_pos h1, if_pos (by omega)]
  · rw [if_neg h1, if_pos (by omega), if_neg (by omega), if_pos (by omega)]

/-- What line 724 reads in place of the characters from `b` up to `b + n` when they are inserted at `p`. -/
theorem insertRangeOwn_eq {s : Str α} {l : List α} (h : Full z s l) {p b e : Nat} (hp : p < l.length) (hbe : b < e) (he : e ≤ l.length)
    (hr : (e - b) + l.length < s.cap) {ys : List α} (hy : ys.length = e - b)
    (hys : ∀ k, k < e - b → ys[k]? = if b < p then l[b + k % (p - b)]? else if b + k < p + (e - b) then l[b + k]? else l[b + k - (e - b)]?) :
    insertRangeOwn z s p b e = insertRange z 1 s p ys := by
  have hb := h.blen; have hln := h.len
  obtain ⟨b0, q1, q2, q3⟩ := Raw.wrList_ok (b := s.buf) (i := s.len) (xs := List.replicate (e - b) z) (by simp; omega)
  simp only [List.length_replicate] at q3
  obtain ⟨b1, a1, a2, a3⟩ := Raw.copyUp_ok (b := b0) (pos := p) (d := e - b) (n := s.len - p) (by omega)
    (by omega) (fun j hj1 hj2 => by
      obtain ⟨a, ha⟩ := h.init (j := j) (by omega)
      exact ⟨a, by rw [q3 j, if_neg (by omega)]; exact ha⟩)
  have old : ∀ j, j < l.length → j < p + (e - b) → b1[j]? = some (l[j]?) := by
    intro j h1 h2
    rw [a3, if_neg (by omega), q3, if_neg (by omega), h.cells j (by omega), List.getElem?_append_left h1]
  have moved : ∀ j, p + (e - b) ≤ j → j < l.length + (e - b) → b1[j]? = some (l[j - (e - b)]?) := by
    intro j h1 h2
    rw [a3, if_pos (by omega), q3, if_neg (by omega), h.cells _ (by omega), List.getElem?_append_left (by omega)]
  have hc : b1.copyDown b p (e - b) = b1.wrList p ys := by
    have := Raw.copyDown_eq_wrList (xs := ys) (b := b1) (src := b) (dst := p) (by omega) fun k hk => by
      rw [hy] at hk
      rw [hys k hk]
      by_cases hbp : b < p
      · rw [if_pos hbp]
        by_cases hpk : p ≤ b + k
        · rw [if_pos ⟨hpk, hbp⟩, hys _ (by omega), if_pos hbp]
          have : (b + k - p) % (p - b) = k % (p - b) := by
            conv => rhs; rw [show k = (b + k - p) + (p - b) by omega]
            rw [Nat.add_mod_right]
          rw [this]
        · rw [if_neg (by omega), old _ (by omega) (by omega), Nat.mod_eq_of_lt (by omega)]
      · rw [if_neg hbp, if_neg (by omega)]
        by_cases hk2 : b + k < p + (e - b)
        · rw [if_pos hk2, old _ (by omega) hk2]
        · rw [if_neg hk2, moved _ (by omega) (by omega)]
    rwa [hy] at this
  rw [insertRangeOwn, if_neg (by omega), if_neg (by omega), if_pos (by omega), if_neg (by omega),
    insertRange, if_neg (by omega), if_neg (by omega), if_pos (by omega), if_neg (by omega), hy, q1]
  simp only [Res.ok_bind, a1, hc]

theorem pushBackOwn_eq {s : Str α} {l : List α} (h : Full z s l) {i : Nat} (hi : i < l.length) (f : Nat) :
    pushBackOwn z s i = pushBack z (f + 1) s l[i] := by
  have hlt := h.lt; have hln := h.len
  rw [pushBackOwn, if_pos (by omega), pushBack, if_pos (by omega), Raw.rd_ok (a := l[i])
    (by rw [h.cells i (by omega), List.getElem?_append_left hi, List.getElem?_eq_getElem hi])]
  rfl

theorem pushBackOwnLoop_ok : ∀ {n : Nat} {s : Str α} {l : List α} {b : Nat}, Full z s l → b + n ≤ l.length → n + l.length < s.cap →
    ∃ s', pushBackOwnLoop z s b n = .ok s' ∧ Full z s' (l ++ (l.drop b).take n) := by
  intro n
  induction n with
  | zero => intro s l b h _ _; exact ⟨s, rfl, by simpa using h⟩
  | succ n ih =>
    intro s l b h hb hr
    obtain ⟨s1, a1, c1, d1⟩ := pushBack_fits h (l[b]'(by omega)) (by omega) 0
    obtain ⟨s2, a2, c2⟩ := ih (b := b + 1) c1 (by simp; omega) (by simp; omega)
    refine ⟨s2, by rw [pushBackOwnLoop, pushBackOwn_eq h (by omega) 0, a1]; exact a2, ?_⟩
    rw [List.drop_append_of_le_length (by omega), List.take_append_of_le_length (by simp; omega), List.append_assoc] at c2
    rwa [List.drop_eq_getElem_cons (show b < l.length by omega), List.take_succ_cons]

/-- The text that inserting the characters from `b` up to `b + n` at `p` inserts. -/
theorem ownText_exists (z : α) {l : List α} {p b e : Nat} (hbe : b < e) (he : e ≤ l.length) :
    ∃ ys : List α, ys.length = e - b ∧
      ∀ k, k < e - b → ys[k]? = if b < p then l[b + k % (p - b)]? else if b + k < p + (e - b) then l[b + k]? else l[b + k - (e - b)]? := by
  let idx : Nat → Nat := fun k => if b < p then b + k % (p - b) else if b + k < p + (e - b) then b + k else b + k - (e - b)
  have hidx : ∀ k, k < e - b → idx k < l.length := by
    intro k hk
    simp only [idx]
    split
    · have := Nat.mod_le k (p - b); omega
    · split <;> omega
  refine ⟨(List.range (e - b)).map fun k => l.getD (idx k) z, by simp, fun k hk => ?_⟩
  have h1 : ((List.range (e - b)).map fun k => l.getD (idx k) z)[k]? = l[idx k]? := by
    rw [List.getElem?_map, List.getElem?_range hk, List.getElem?_eq_getElem (hidx k hk)]
    simp [List.getD, List.getElem?_eq_getElem (hidx k hk)]
  rw [h1]
  simp only [idx]
  split
  · rfl
  · split <;> rfl

end Str

/-- **C138, appending.** `s.pushBack(s[i])` does exactly what appending an equal character does. `s.pushBack(s.data() + k)` appends the text from
`k` on if it fits with two characters to spare; otherwise the storage is moved and the argument read afterwards. -/
theorem C138_append_partial {s : Str α} {l : List α} (h : Full z s l) (hz : ∀ c ∈ l, c ≠ z) :
    (∀ i (hi : i < l.length) f, pushBackOwn z s i = pushBack z (f + 1) s l[i]) ∧
    (∀ k, k ≤ l.length → l.length + (l.length - k) + 2 < s.cap →
      ∃ s', pushBackRawOwn z s k = .ok s' ∧ Shows z s' (l ++ l.drop k)) ∧
    (∀ k, k ≤ l.length → s.cap ≤ l.length + (l.length - k) + 2 → pushBackRawOwn z s k = .ub) := by
  have hln := h.len; have hb := h.blen; have hlt := h.lt
  have hn : ∀ k, k ≤ l.length → scanOwn z (s.buf.drop k) = .ok (l.length - k) := fun k hk => by
    have := scanOwn_ok (fun c hc => hz c (List.mem_of_mem_drop hc)) (h.drop hk)
    simpa using this
  refine ⟨fun i hi f => pushBackOwn_eq h hi f, fun k hk hr => ?_, fun k hk hr => ?_⟩
  · obtain ⟨b, h1, h2⟩ := write_tail (ys := l.drop k) h (by simp; omega)
    refine ⟨⟨b, s.cap, l.length + (l.drop k).length⟩, ?_, h2.shows ?_⟩
    · have e := Raw.copyDown_eq_wrList (xs := l.drop k) (b := s.buf) (src := k) (dst := l.length) (by simp; omega) fun j hj => by
        simp only [List.length_drop] at hj
        rw [if_neg (by omega), h.cells _ (by omega), List.getElem?_append_left (by omega), List.getElem?_drop]
      simp only [List.length_drop] at e h1 ⊢
      rw [pushBackRawOwn, hn k hk]
      simp only [Res.ok_bind]
      rw [if_pos (by omega), hln, e]
      rw [Res.bind_eq_ok] at h1
      obtain ⟨b', h3, h4⟩ := h1
      simp [h3, h4]
    · intro c hc
      rcases List.mem_append.1 hc with hc | hc
      · exact hz c hc
      · exact hz c (List.mem_of_mem_drop hc)
  · rw [pushBackRawOwn, hn k hk]
    simp only [Res.ok_bind]
    rw [if_neg (by omega), if_pos]
    unfold nextCap
    split <;> omega

/-- **C138, assigning.** `s = s.data()` empties the string; `s = s.data() + k` for `k ≥ 1` gives the text from `k` on; a self move empties the string. -/
theorem C138_assign_exact {s : Str α} {l : List α} (h : Full z s l) (hz : ∀ c ∈ l, c ≠ z) :
    (∃ s', assignRawOwn z s 0 = .ok s' ∧ Shows z s' []) ∧
    (∀ k, 1 ≤ k → k ≤ l.length → ∃ s', assignRawOwn z s k = .ok s' ∧ Shows z s' (l.drop k)) ∧
    moveAssignSelf z s = .ok empty := by
  have hln := h.len; have hb := h.blen; have hlt := h.lt
  have hc : clean z s = .ok ⟨s.buf.set 0 (some z), s.cap, 0⟩ := by
    simp [clean, h.cap_ne, Raw.wr_ok z (show 0 < s.buf.length by omega)]
  refine ⟨?_, fun k h1 hk => ?_, by rw [moveAssignSelf, hc]; rfl⟩
  · obtain ⟨a, r, hs⟩ : ∃ a r, s.buf = a :: r := by
      cases hh : s.buf with
      | nil => exact absurd hh h.nonempty
      | cons a r => exact ⟨a, r, rfl⟩
    have hf : Full z (⟨some z :: r, s.cap, 0⟩ : Str α) [] := by
      refine ⟨by rw [← hb, hs]; rfl, rfl, by simp; omega, fun i hi => ?_⟩
      have : i = 0 := by simpa using hi
      subst this; rfl
    refine ⟨⟨some z :: r, s.cap, 0⟩, ?_, hf.shows (by simp)⟩
    rw [assignRawOwn, hc, hs]
    simp only [List.set_cons_zero, Res.ok_bind, List.drop_zero, scanOwn, if_true]
    rw [if_pos (by omega)]
    simp [Raw.copyDown, Raw.rd, Raw.wr]
  · have hd : ∀ j, j ≤ l.length → 1 ≤ j → (s.buf.set 0 (some z))[j]? = some ((l ++ [z])[j]?) := by
      intro j h2 h3
      rw [List.getElem?_set, if_neg (by omega), h.cells j h2]
    have hn : scanOwn z ((s.buf.set 0 (some z)).drop k) = .ok (l.length - k) := by
      have := scanOwn_ok (z := z) (xs := l.drop k) (r := (s.buf.set 0 (some z)).drop k) (fun c hc => hz c (List.mem_of_mem_drop hc)) fun i hi => by
        have e := h.drop hk i hi
        simp only [List.length_drop] at hi
        rw [← e, List.getElem?_drop, List.getElem?_drop, List.getElem?_set, if_neg (by omega)]
      simpa using this
    obtain ⟨b, a1, a2, a3⟩ := Raw.copyDown_ok (b := s.buf.set 0 (some z)) (src := k) (dst := 0) (n := l.length - k + 1) (by omega)
      (fun j h2 h3 => by
        obtain ⟨a, ha⟩ := h.init (j := j) (by omega)
        exact ⟨a, by rw [List.getElem?_set, if_neg (by omega), ha]⟩)
    simp only [List.length_set] at a2
    have hf : Full z (⟨b.set (l.length - k) (some z), s.cap, l.length - k⟩ : Str α) (l.drop k) := by
      refine ⟨by simp [a2, hb], by simp, by simp; omega, fun i hi => ?_⟩
      simp only [List.length_drop] at hi
      show (b.set (l.length - k) (some z))[i]? = _
      rw [List.getElem?_set, getElem?_snoc, List.length_drop, List.getElem?_drop]
      by_cases e : l.length - k = i
      · rw [if_pos e, if_pos (by omega), if_neg (by omega), if_pos e.symm]
      · rw [if_neg e, if_pos (by omega), a3, if_pos (by omega), hd _ (by omega) (by omega), getElem?_snoc, if_pos (by omega)]
        congr 2; omega
    refine ⟨_, ?_, hf.shows fun c hc => hz c (List.mem_of_mem_drop hc)⟩
    rw [assignRawOwn, hc]
    simp only [Res.ok_bind, hn]
    rw [if_pos (by omega)]
    simp only [a1, Res.ok_bind, Raw.wr_ok z (show l.length - k < b.length by omega)]

/-- **C138, inserting a character.** `s.insert(begin() + p, s[i])` without room moves the storage and then reads the old one; with room it inserts
the character named, unless it stands behind the position: then the one before it is inserted. -/
theorem C138_insert_exact {s : Str α} {l : List α} (h : Full z s l) {p i : Nat} (hp : p ≤ l.length) (hi : i < l.length) :
    (s.cap ≤ l.length + 1 → insertOwn z s p i = .ub) ∧
    (l.length + 1 < s.cap → ∃ s', insertOwn z s p i = .ok s' ∧
      Full z s' (l.take p ++ (if p < i then l[i - 1] else l[i]) :: l.drop p)) := by
  have hln := h.len; have hb := h.blen; have hlt := h.lt
  refine ⟨fun hr => ?_, fun hr => ?_⟩
  · rw [insertOwn, if_neg (by omega), if_neg (by omega), if_pos (by unfold nextCap; omega)]
  · obtain ⟨s', a, b⟩ := insert_fits h hp (if p < i then l[i - 1] else l[i]) hr 0
    refine ⟨s', ?_, b⟩
    rw [← a]
    by_cases hpe : p = l.length
    · rw [insertOwn, if_neg (by omega), if_pos (by omega), if_pos (by omega), Str.insert, if_neg (by omega), if_pos (by omega), if_pos (by omega),
        pushBackOwn_eq h hi 0, if_neg (by omega)]
    · have hwr : Raw.wr s.buf s.len z = .ok (s.buf.set s.len (some z)) := Raw.wr_ok z (by omega)
      obtain ⟨b1, a1, a2, a3⟩ := Raw.copyUp_ok (b := s.buf.set s.len (some z)) (pos := p) (d := 1) (n := s.len - p) (by omega)
        (by simp; omega) (fun j hj1 hj2 => by
          obtain ⟨a, ha⟩ := h.init (j := j) (by omega)
          exact ⟨a, by simp [List.getElem?_set, show s.len ≠ j by omega, ha]⟩)
      have hrd : b1.rd i = .ok (if p < i then l[i - 1] else l[i]) := by
        apply Raw.rd_ok
        rw [a3]
        by_cases hc : p < i
        · rw [if_pos (by omega), if_pos hc, List.getElem?_set, if_neg (by omega), h.cells _ (by omega), List.getElem?_append_left (by omega),
            List.getElem?_eq_getElem]
        · rw [if_neg (by omega), if_neg hc, List.getElem?_set, if_neg (by omega), h.cells _ (by omega), List.getElem?_append_left (by omega),
            List.getElem?_eq_getElem]
      rw [insertOwn, if_neg (by omega), if_pos (by omega), if_neg (by omega), Str.insert, if_neg (by omega), if_pos (by omega), if_neg (by omega), hwr]
      simp only [Res.ok_bind, a1, hrd]

/-- **C138, violated.** Whenever two neighbouring characters behind the position differ, inserting the second one inserts the first. -/
theorem C138_insert_violated {s : Str α} {l : List α} (h : Full z s l) {p i : Nat} (hpi : p < i) (hi : i < l.length) (hd : l[i - 1] ≠ l[i])
    (hr : l.length + 1 < s.cap) : ∃ s', insertOwn z s p i = .ok s' ∧ chars s' ≠ .ok (l.take p ++ l[i] :: l.drop p) := by
  obtain ⟨s', a, b⟩ := (C138_insert_exact h (p := p) (by omega) hi).2 hr
  refine ⟨s', a, ?_⟩
  rw [b.chars, if_pos hpi]
  intro e
  simp only [Res.ok.injEq, List.append_cancel_left_eq, List.cons.injEq] at e
  exact hd e.1

/-- **C138, inserting a range.** `s.insert(begin() + p, begin() + b, begin() + e)` never returns without room; with room it is correct at the end, for a
range that ends before the position and for one that starts at it; an empty range changes nothing; otherwise characters are repeated or taken after they were moved. -/
theorem C138_range_exact {s : Str α} {l : List α} (h : Full z s l) {p b e : Nat} (hp : p ≤ l.length) (hbe : b < e) (he : e ≤ l.length) :
    insertRangeOwn z s p e e = .ok s ∧
    (s.cap ≤ (e - b) + l.length → insertRangeOwn z s p b e = .loop) ∧
    ((e - b) + l.length < s.cap →
      (p = l.length ∨ e ≤ p ∨ p = b →
        ∃ s', insertRangeOwn z s p b e = .ok s' ∧ Full z s' (l.take p ++ ((l.drop b).take (e - b) ++ l.drop p))) ∧
      (p < l.length → ∃ s' ys, insertRangeOwn z s p b e = .ok s' ∧ Full z s' (l.take p ++ (ys ++ l.drop p)) ∧ ys.length = e - b ∧
        ∀ k, k < e - b → ys[k]? =
          if b < p then l[b + k % (p - b)]? else if b + k < p + (e - b) then l[b + k]? else l[b + k - (e - b)]?)) := by
  have hln := h.len; have hb := h.blen; have hlt := h.lt
  refine ⟨by rw [insertRangeOwn, if_neg (by omega), if_pos (by omega)], fun hr => ?_, fun hr => ⟨fun hc => ?_, fun hpl => ?_⟩⟩
  · rw [insertRangeOwn, if_neg (by omega), if_neg (by omega), if_neg (by omega), if_neg (by omega)]
  · by_cases hpe : p = l.length
    · obtain ⟨s', a, c⟩ := pushBackOwnLoop_ok (n := e - b) (b := b) h (by omega) hr
      refine ⟨s', ?_, by rw [hpe]; simpa using c⟩
      rw [insertRangeOwn, if_neg (by omega), if_neg (by omega), if_pos (by omega), if_pos (by omega), a]
    · obtain ⟨s', a, c⟩ := insertRange_fits (ys := (l.drop b).take (e - b)) h hp (by simp; omega) 0
      refine ⟨s', ?_, c⟩
      rw [insertRangeOwn_eq h (by omega) hbe he hr (ys := (l.drop b).take (e - b)) (by simp; omega) ?_, a]
      intro k hk
      rw [List.getElem?_take_of_lt hk, List.getElem?_drop]
      by_cases hbp : b < p
      · rw [if_pos hbp, Nat.mod_eq_of_lt (by omega)]
      · rw [if_neg hbp, if_pos (by omega)]
  · obtain ⟨ys, y1, y2⟩ := ownText_exists z (p := p) hbe he
    obtain ⟨s', a, c⟩ := insertRange_fits (ys := ys) h hp (by omega) 0
    exact ⟨s', ys, by rw [insertRangeOwn_eq h hpl hbe he hr y1 y2, a], c, y1, y2⟩

/-- **C20, violated.** A C string in memory that is not `const` is never appended by `+=`, whatever it holds; the same text through a pointer to `const`
is. -/
theorem C20_mutable_violated {s : Str α} {l ys : List α} {p : CPtr α} (h : Rep z s l) (hz : ∀ c ∈ l ++ ys, c ≠ z) (hp : Src z p ys) (hy : ys ≠ [])
    (f : Nat) : chars (appendMutable s p) = .ok l ∧ l ≠ l ++ ys ∧ ∃ s', pushBackRaw z (f + 3) s p = .ok s' ∧ Shows z s' (l ++ ys) := by
  obtain ⟨s', a, b, _⟩ := pushBackRaw_ok h hp f
  refine ⟨h.chars, fun e => ?_, s', a, b.shows hz⟩
  have h1 := congrArg List.length e
  have h2 := List.length_pos_iff.mpr hy
  rw [List.length_append] at h1
  omega

example : Rep (0 : Nat) (Str.empty : Str Nat) [] ∧ (∀ c ∈ ([] : List Nat) ++ [5], c ≠ 0) ∧ Src (0 : Nat) (some [5, 0]) [5] :=
  ⟨Or.inr ⟨rfl, rfl⟩, by decide, Or.inl ⟨by decide, [], rfl⟩⟩

/-- `"abc"` with and without room for more. -/
theorem Str.own_example (n : Nat) : Full 0 (⟨[some 1, some 2, some 3, some 0] ++ List.replicate n none, 4 + n, 3⟩ : Str Nat) [1, 2, 3] := by
  refine ⟨by simp; omega, rfl, by simp; omega, fun i hi => ?_⟩
  match i, hi with
  | 0, _ => rfl
  | 1, _ => rfl
  | 2, _ => rfl
  | 3, _ => rfl

example : Full 0 (⟨[some 1, some 2, some 3, some 0, none, none, none, none], 8, 3⟩ : Str Nat) [1, 2, 3] ∧ (∀ c ∈ [1, 2, 3], c ≠ 0) ∧
    [1, 2, 3].length + ([1, 2, 3].length - 1) + 2 < 8 := ⟨Str.own_example 4, by decide, by decide⟩

example : Full 0 (⟨[some 1, some 2, some 3, some 0], 4, 3⟩ : Str Nat) [1, 2, 3] ∧ 4 ≤ [1, 2, 3].length + 1 := ⟨Str.own_example 0, by decide⟩

example : (0 : Nat) < 2 ∧ 2 < [1, 2, 3].length ∧ [1, 2, 3][2 - 1] ≠ [1, 2, 3][2] ∧ [1, 2, 3].length + 1 < 4 + 1 := by decide

example : (1 : Nat) ≤ [1, 2, 3].length ∧ 0 < 2 ∧ 2 ≤ [1, 2, 3].length ∧ (2 - 0) + [1, 2, 3].length < 4 + 2 ∧ 4 ≤ (2 - 0) + [1, 2, 3].length := by decide

namespace Flame
open Str StrSpec
example := C138_append_partial (Str.own_example 4) (by decide)
example := C138_assign_exact (Str.own_example 4) (by decide)
example := C138_insert_exact (Str.own_example 4) (p := 0) (i := 2) (by decide) (by decide)
example := C138_insert_violated (Str.own_example 4) (p := 0) (i := 2) (by decide) (by decide) (by decide) (by decide)
example := C138_range_exact (Str.own_example 4) (p := 1) (b := 0) (e := 2) (by decide) (by decide) (by decide)
end Flame

end Flame
