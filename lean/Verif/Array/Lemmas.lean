import Verif.Array.Model
import Verif.Vector.Lemmas

/-! # Helper lemmas for the `Array` model -/

set_option linter.unusedSimpArgs false

namespace Flame
namespace SVec
variable {α : Type u}

/-- The same storage seen as a vector that owns exactly `buf`. -/
@[reducible] def toVec (s : SVec α) : Vec α := ⟨s.buf, s.buf.length, s.size⟩

/-- `s` stores exactly `l`. -/
def Rep (s : SVec α) (l : List α) : Prop := Vec.Rep s.toVec l

theorem Rep.size_eq {s : SVec α} {l : List α} (h : Rep s l) : s.size = l.length := h.2.1
theorem Rep.size_le {s : SVec α} {l : List α} (h : Rep s l) : l.length ≤ s.cap := by
  have := h.size_le_cap; rw [h.2.1] at this; exact this

theorem rep_empty (n : Nat) : Rep (empty n : SVec α) [] := ⟨rfl, rfl, _, rfl⟩

theorem rep_of {b : Cells α} {m : Nat} {l : List α} {R : Cells α} (h : b = l.map .live ++ R) (hm : m = l.length) :
    Rep (⟨b, m⟩ : SVec α) l := ⟨rfl, hm, R, h⟩

theorem rep_toList {s : SVec α} {l : List α} (h : Rep s l) : s.toList = .ok l := by
  obtain ⟨_, h2, R, h3⟩ := h
  have := Cells.getRange_append (A := []) (R := R) (xs := l) (i := 0) rfl
  simp only [toVec] at h2 h3
  simp only [toList, h2, h3]; simpa using this

theorem ok_vec {b : Cells α} {n m : Nat} {l : List α} (h : Vec.Rep (⟨b, n, m⟩ : Vec α) l) :
    Rep (⟨b, m⟩ : SVec α) l := by
  obtain ⟨_, h2, R, h3⟩ := h
  exact ⟨rfl, h2, R, h3⟩

theorem pushBack_ok {s : SVec α} {l : List α} (h : Rep s l) (x : α) :
    ∃ s', s.pushBack x = .ok s' ∧ Rep s' (if l.length < s.cap then l ++ [x] else l) ∧ s'.cap = s.cap := by
  by_cases hs : l.length < s.cap
  · have h2 := h.size_eq
    obtain ⟨R, h3⟩ := h.2.2
    simp only [toVec] at h3
    obtain ⟨c, R, rfl⟩ : ∃ c R', R = c :: R' := by
      cases R with
      | nil => exfalso; rw [cap, h3] at hs; simp at hs
      | cons c R => exact ⟨c, R, rfl⟩
    refine ⟨⟨l.map .live ++ .live x :: R, s.size + 1⟩, ?_, ?_, ?_⟩
    · rw [pushBack, if_pos (by omega), h3, Cells.construct_append x (by simp [h2])]; rfl
    · rw [if_pos hs]; exact rep_of (R := R) (by simp) (by simp [h2])
    · simp [cap, h3]
  · refine ⟨s, ?_, by rw [if_neg hs]; exact h, rfl⟩
    rw [pushBack, if_neg (by rw [h.size_eq]; exact hs)]

theorem pushBackList_ok {s : SVec α} {l : List α} (h : Rep s l) (xs : List α) :
    ∃ s', s.pushBackList xs = .ok s' ∧ Rep s' (l ++ xs.take (s.cap - l.length)) ∧ s'.cap = s.cap := by
  induction xs generalizing s l with
  | nil => exact ⟨s, rfl, by simpa using h, rfl⟩
  | cons x xs ih =>
    obtain ⟨s', a, b, c⟩ := pushBack_ok h x
    obtain ⟨s'', a', b', c'⟩ := ih b
    refine ⟨s'', by simp only [pushBackList, a, Res.ok_bind]; exact a', ?_, by omega⟩
    have hle := h.size_le
    rw [c] at b'
    by_cases hs : l.length < s.cap
    · rw [if_pos hs] at b'
      obtain ⟨k, hk⟩ : ∃ k, s.cap - l.length = k + 1 := ⟨s.cap - l.length - 1, by omega⟩
      rw [hk, List.take_succ_cons]
      rw [List.length_append, List.length_singleton, show s.cap - (l.length + 1) = k by omega] at b'
      simpa using b'
    · rw [if_neg hs] at b'
      rw [show s.cap - l.length = 0 by omega] at b' ⊢
      simpa using b'

theorem popBack_ok {triv : Bool} {s : SVec α} {l : List α} (h : Rep s l) :
    ∃ s', s.popBack triv = .ok s' ∧ Rep s' l.dropLast ∧ s'.cap = s.cap := by
  obtain ⟨v', a, b, c, _⟩ := Vec.popBack_ok (triv := triv) h
  refine ⟨⟨v'.buf, v'.size⟩, ?_, ok_vec b, ?_⟩
  · unfold Vec.popBack at a
    simp only [popBack]
    split
    · rename_i hz
      rw [if_pos (show s.toVec.size ≠ 0 from hz)] at a
      simp only [toVec] at a
      cases hh : s.buf.destroy triv (s.size - 1) with
      | ok bb => rw [hh] at a; simp only [Res.ok_bind, Res.ok.injEq] at a ⊢; rw [← a]
      | ub => rw [hh] at a; cases a
      | loop => rw [hh] at a; cases a
    · rename_i hz
      rw [if_neg (show ¬ s.toVec.size ≠ 0 from hz)] at a
      injection a with a; rw [← a]
  · have := b.1
    show v'.buf.length = s.buf.length
    rw [← this, c]

theorem clean_ok {triv : Bool} {s : SVec α} {l : List α} (h : Rep s l) :
    ∃ s', s.clean triv = .ok s' ∧ Rep s' [] ∧ s'.cap = s.cap := by
  obtain ⟨v', a, b, c, _⟩ := Vec.clean_ok (triv := triv) h
  refine ⟨⟨v'.buf, v'.size⟩, ?_, ok_vec b, ?_⟩
  · simp only [Vec.clean, toVec] at a
    simp only [clean]
    cases hh : s.buf.destroyRange triv 0 s.size with
    | ok bb => rw [hh] at a; simp only [Res.ok_bind, Res.ok.injEq] at a ⊢; rw [← a]
    | ub => rw [hh] at a; cases a
    | loop => rw [hh] at a; cases a
  · show v'.buf.length = s.buf.length
    rw [← b.1, c]

theorem erase_ok {triv : Bool} {s : SVec α} {l : List α} (h : Rep s l) {p : Nat} (hp : p ≤ l.length) :
    ∃ s', s.erase triv p = .ok s' ∧ Rep s' (l.take p ++ l.drop (p + 1)) ∧ s'.cap = s.cap := by
  have h2 := h.size_eq
  by_cases hpe : p = s.size
  · refine ⟨s, by rw [erase, if_neg (by omega), if_pos hpe], ?_, rfl⟩
    rw [List.take_of_length_le (by omega), List.drop_of_length_le (by omega)]
    simpa using h
  by_cases hpl : p + 1 = s.size
  · obtain ⟨s', a, b, c⟩ := popBack_ok (triv := triv) h
    refine ⟨s', by rw [erase, if_neg (by omega), if_neg hpe, if_pos hpl]; exact a, ?_, c⟩
    rw [List.drop_of_length_le (by omega), List.append_nil]
    rw [List.dropLast_eq_take] at b
    rw [show p = l.length - 1 by omega]; exact b
  · obtain ⟨v', a, b, c, _⟩ := Vec.erase_ok (triv := triv) h (p := p) (by simp only [toVec]; omega)
    refine ⟨⟨v'.buf, v'.size⟩, ?_, ok_vec b, ?_⟩
    · unfold Vec.erase at a
      rw [if_neg (by simp only [toVec]; omega), if_neg hpe, if_neg hpl] at a
      simp only [toVec] at a
      rw [erase, if_neg (by omega), if_neg hpe, if_neg hpl]
      cases hh : s.buf.shiftDown triv (p + 1) p (s.size - (p + 1)) with
      | ok bb => rw [hh] at a; simp only [Res.ok_bind, Res.ok.injEq] at a ⊢; rw [← a]
      | ub => rw [hh] at a; cases a
      | loop => rw [hh] at a; cases a
    · show v'.buf.length = s.buf.length
      rw [← b.1, c]

theorem eraseRange_ok {triv : Bool} {s : SVec α} {l : List α} (h : Rep s l) {b e : Nat} (hb : b ≤ l.length)
    (he : e ≤ l.length) (ht : triv = true ∨ ¬ (b < e ∧ e < l.length)) :
    ∃ s', s.eraseRange triv b e = .ok s' ∧ Rep s' (if b ≤ e then l.take b ++ l.drop e else l) ∧ s'.cap = s.cap := by
  have h2 := h.size_eq
  by_cases hbe : b ≤ e
  · by_cases hfull : e = b + s.size
    · obtain ⟨s', a, r, c⟩ := clean_ok (triv := triv) h
      refine ⟨s', ?_, ?_, c⟩
      · rw [eraseRange, if_neg (by omega), if_pos hfull]; exact a
      · rw [if_pos hbe, List.drop_of_length_le (by omega), show b = 0 by omega]; simpa using r
    by_cases hz : b = e
    · subst hz
      refine ⟨s, ?_, by simpa using h, rfl⟩
      rw [eraseRange, if_neg (by omega), if_neg hfull, if_neg (by omega)]
    · obtain ⟨v', a, r, c, _⟩ := Vec.eraseRange_ok (triv := triv) h hbe (by simp only [toVec]; omega)
        (by simp only [toVec]; rcases ht with h | h; exact Or.inl h; right; omega)
      refine ⟨⟨v'.buf, v'.size⟩, ?_, by rw [if_pos hbe]; exact ok_vec r, ?_⟩
      · unfold Vec.eraseRange at a
        rw [if_neg (by simp only [toVec]; omega), if_neg (by omega), if_neg (by simp only [toVec]; omega),
          if_pos (by omega)] at a
        simp only [toVec] at a
        rw [eraseRange, if_neg (by omega), if_neg hfull, if_pos (by omega)]
        cases hh : s.buf.destroyRange triv b (e - b) with
        | ok bb =>
          rw [hh] at a; simp only [Res.ok_bind] at a ⊢
          cases hh2 : bb.shiftDown triv e b (s.size - e) with
          | ok b2 => rw [hh2] at a; simp only [Res.ok_bind, Res.ok.injEq] at a ⊢; rw [← a]
          | ub => rw [hh2] at a; cases a
          | loop => rw [hh2] at a; cases a
        | ub => rw [hh] at a; cases a
        | loop => rw [hh] at a; cases a
      · show v'.buf.length = s.buf.length
        rw [← r.1, c]
  · refine ⟨s, ?_, by rw [if_neg hbe]; exact h, rfl⟩
    rw [eraseRange, if_neg (by omega), if_neg (by omega), if_neg (by omega)]

theorem insertRange_ok {triv : Bool} {s : SVec α} {l : List α} (h : Rep s l) {p : Nat} (hp : p ≤ l.length) (xs : List α) :
    ∃ s', s.insertRange triv p xs = .ok s' ∧
      Rep s' (if xs.length + l.length ≤ s.cap then l.take p ++ xs ++ l.drop p else l) ∧ s'.cap = s.cap := by
  have h2 := h.size_eq
  have hle := h.size_le
  by_cases hx : xs.length = 0
  · refine ⟨s, by rw [insertRange, if_neg (by omega), if_pos hx], ?_, rfl⟩
    have : xs = [] := by simpa using hx
    rw [this]; simpa using h
  by_cases hd : xs.length + l.length ≤ s.cap
  · by_cases hpe : p = s.size
    · obtain ⟨s', a, b, c⟩ := pushBackList_ok h xs
      refine ⟨s', ?_, ?_, c⟩
      · rw [insertRange, if_neg (by omega), if_neg hx, if_pos (by omega), if_pos hpe]; exact a
      · rw [if_pos hd, List.take_of_length_le (by omega), List.drop_of_length_le (by omega)]
        rw [List.take_of_length_le (by omega)] at b
        simpa using b
    · obtain ⟨b1, b2, R, e1, e2, e3, e4, _⟩ := Vec.shiftIn_ok (triv := triv) (xs := xs) h (p := p)
        (by simp only [toVec]; omega) (by omega) (by simp only [toVec, cap] at *; omega)
      have e5 : b2.assignList triv p xs = .ok ((l.take p ++ xs ++ l.drop p).map .live ++ R) := by
        rw [e3, Cells.assignList_append triv (by simp [List.mem_replicate]) (by simp) (by simp; omega)]
        simp
      simp only [toVec] at e1 e2 e4
      refine ⟨⟨(l.take p ++ xs ++ l.drop p).map .live ++ R, s.size + xs.length⟩, ?_, ?_, ?_⟩
      · rw [insertRange, if_neg (by omega), if_neg hx, if_pos (by omega), if_neg hpe, e1]
        simp only [Res.ok_bind]
        rw [e2]
        simp only [Res.ok_bind]
        rw [e5]
        rfl
      · rw [if_pos hd]; exact rep_of rfl (by simp; omega)
      · simp only [cap] at *; rw [e4]; simp; omega
  · refine ⟨s, ?_, by rw [if_neg hd]; exact h, rfl⟩
    rw [insertRange, if_neg (by omega), if_neg hx, if_neg (by omega)]

theorem insert_ok {triv : Bool} {s : SVec α} {l : List α} (h : Rep s l) {p : Nat} (hp : p ≤ l.length) (x : α) :
    ∃ s', s.insert triv p x = .ok s' ∧ s.emplace triv p x = .ok s' ∧
      Rep s' (if l.length < s.cap then l.take p ++ x :: l.drop p else l) ∧ s'.cap = s.cap := by
  have h2 := h.size_eq
  have hle := h.size_le
  by_cases hd : l.length < s.cap
  · by_cases hpe : p = s.size
    · obtain ⟨s', a, b, c⟩ := pushBack_ok h x
      refine ⟨s', ?_, ?_, ?_, c⟩
      · rw [insert, if_neg (by omega), if_pos (by omega), if_pos hpe]; exact a
      · rw [emplace, if_neg (by omega), if_pos (by omega), if_pos hpe]; exact a
      · rw [if_pos hd] at b
        rw [if_pos hd, List.take_of_length_le (by omega), List.drop_of_length_le (by omega)]
        exact b
    · obtain ⟨b1, b2, R, e1, e2, e3, e4, _⟩ := Vec.shiftIn_ok (triv := triv) (xs := [x]) h (p := p)
        (by simp only [toVec]; omega) (by simp) (by simp only [toVec, cap, List.length_singleton] at *; omega)
      simp only [toVec] at e1 e2 e4
      have e0 : s.buf.constructJunk s.size = .ok b1 := by
        simp only [Cells.junkRange, List.length_singleton] at e1
        cases hh : s.buf.constructJunk s.size <;> simp_all
      simp only [List.length_singleton, List.replicate_one] at e2 e3 e4
      have e5 : b2.assign triv p x = .ok ((l.take p ++ x :: l.drop p).map .live ++ R) := by
        rw [e3, List.singleton_append, Cells.assign_append x (by simp; omega) (by simp)]
        simp
      have e6 : ∃ b3, b2.destroy triv p = .ok b3 ∧ b3.construct p x = .ok ((l.take p ++ x :: l.drop p).map .live ++ R) := by
        refine ⟨_, by rw [e3, List.singleton_append, Cells.destroy_append (by simp; omega) (by simp)], ?_⟩
        rw [Cells.construct_append x (by simp; omega)]
        simp
      obtain ⟨b3, e6, e7⟩ := e6
      refine ⟨⟨(l.take p ++ x :: l.drop p).map .live ++ R, s.size + 1⟩, ?_, ?_, ?_, ?_⟩
      · rw [insert, if_neg (by omega), if_pos (by omega), if_neg hpe, e0]
        simp only [Res.ok_bind]
        rw [e2]
        simp only [Res.ok_bind]
        rw [e5]
        rfl
      · rw [emplace, if_neg (by omega), if_pos (by omega), if_neg hpe, e0]
        simp only [Res.ok_bind]
        rw [e2]
        simp only [Res.ok_bind]
        rw [e6]
        simp only [Res.ok_bind]
        rw [e7]
        rfl
      · rw [if_pos hd]; exact rep_of rfl (by simp; omega)
      · simp only [cap] at *; rw [e4]; simp; omega
  · refine ⟨s, ?_, ?_, by rw [if_neg hd]; exact h, rfl⟩
    · rw [insert, if_neg (by omega), if_neg (by omega)]
    · rw [emplace, if_neg (by omega), if_neg (by omega)]

end SVec
end Flame
