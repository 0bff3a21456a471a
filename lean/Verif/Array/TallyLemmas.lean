import Verif.Array.Tally
import Verif.Array.Props
import Verif.Vector.TallyLemmas

/-! # Balance of constructor and destructor calls of `Array`: lemmas -/

namespace Flame
namespace SVec
variable {α : Type u}
open Vec (Bal)

theorem pushBackT_ok {s s' : SVec α} {x : α} {t : Tally} {k : Nat} (h : s.pushBack x = .ok s') (hb : Bal t s.size k) :
    ∃ t', s.pushBackT x t = .ok (s', t') ∧ Bal t' s'.size k := by
  rw [pushBack] at h
  split at h
  · rename_i hc
    obtain ⟨b, h1, h2⟩ := Res.bind_eq_ok.1 h
    simp only [Res.ok.injEq] at h2; subst h2
    refine ⟨t.make 1, ?_, hb.make 1⟩
    simp only [pushBackT, if_pos hc, Cells.constructT, h1, Res.ok_bind]
  · rename_i hc
    simp only [Res.ok.injEq] at h; subst h
    exact ⟨t, by simp only [pushBackT, if_neg hc], hb⟩

theorem pushBackListT_ok {xs : List α} : ∀ {s s' : SVec α} {t : Tally} {k : Nat},
    s.pushBackList xs = .ok s' → Bal t s.size k → ∃ t', s.pushBackListT xs t = .ok (s', t') ∧ Bal t' s'.size k := by
  induction xs with
  | nil => intro s s' t k h hb; simp only [pushBackList, Res.ok.injEq] at h; subst h; exact ⟨t, rfl, hb⟩
  | cons x xs ih =>
    intro s s' t k h hb
    simp only [pushBackList] at h
    obtain ⟨w, h1, h2⟩ := Res.bind_eq_ok.1 h
    obtain ⟨t1, h3, h4⟩ := pushBackT_ok h1 hb
    obtain ⟨t2, h5, h6⟩ := ih h2 h4
    exact ⟨t2, by simp only [pushBackListT, h3, Res.ok_bind]; exact h5, h6⟩

theorem popBackT_ok {triv : Bool} {s s' : SVec α} {t : Tally} {k : Nat} (h : s.popBack triv = .ok s') (hb : Bal t s.size k) :
    ∃ t', s.popBackT triv t = .ok (s', t') ∧ Bal t' s'.size k := by
  rw [popBack] at h
  split at h
  · rename_i hc
    obtain ⟨b, h1, h2⟩ := Res.bind_eq_ok.1 h
    simp only [Res.ok.injEq] at h2; subst h2
    refine ⟨t.finish 1, ?_, hb.finish (by omega)⟩
    simp only [popBackT, if_pos hc, Cells.destroyT, h1, Res.ok_bind]
  · rename_i hc
    simp only [Res.ok.injEq] at h; subst h
    exact ⟨t, by simp only [popBackT, if_neg hc], hb⟩

theorem cleanT_ok {triv : Bool} {s s' : SVec α} {t : Tally} {k : Nat} (h : s.clean triv = .ok s') (hb : Bal t s.size k) :
    ∃ t', s.cleanT triv t = .ok (s', t') ∧ Bal t' s'.size k := by
  rw [clean] at h
  obtain ⟨b, h1, h2⟩ := Res.bind_eq_ok.1 h
  simp only [Res.ok.injEq] at h2; subst h2
  refine ⟨t.finish s.size, by simp only [cleanT, Cells.destroyRangeT_ok t h1, Res.ok_bind], ?_⟩
  have := hb.finish (Nat.le_refl s.size)
  simpa using this

theorem insertT_ok {triv : Bool} {s s' : SVec α} {p : Nat} {x : α} {t : Tally} {k : Nat} (h : s.insert triv p x = .ok s')
    (hb : Bal t s.size k) : ∃ t', s.insertT triv p x t = .ok (s', t') ∧ Bal t' s'.size k := by
  rw [insert] at h
  split at h
  · simp at h
  rename_i hc1
  split at h
  · rename_i hc2
    split at h
    · rename_i hc3
      obtain ⟨t', h3, h4⟩ := pushBackT_ok h hb
      exact ⟨t', by simp only [insertT, if_neg hc1, if_pos hc2, if_pos hc3]; exact h3, h4⟩
    · rename_i hc3
      obtain ⟨b1, h1, h⟩ := Res.bind_eq_ok.1 h
      obtain ⟨b2, h2, h⟩ := Res.bind_eq_ok.1 h
      obtain ⟨b3, h3, h⟩ := Res.bind_eq_ok.1 h
      simp only [Res.ok.injEq] at h; subst h
      refine ⟨t.make 1, ?_, hb.make 1⟩
      simp only [insertT, if_neg hc1, if_pos hc2, if_neg hc3, Cells.constructJunkT, h1, h2, h3, Res.ok_bind]
  · rename_i hc2
    simp only [Res.ok.injEq] at h; subst h
    exact ⟨t, by simp only [insertT, if_neg hc1, if_neg hc2], hb⟩

theorem emplaceT_ok {triv : Bool} {s s' : SVec α} {p : Nat} {x : α} {t : Tally} {k : Nat} (h : s.emplace triv p x = .ok s')
    (hb : Bal t s.size k) : ∃ t', s.emplaceT triv p x t = .ok (s', t') ∧ Bal t' s'.size k := by
  rw [emplace] at h
  split at h
  · simp at h
  rename_i hc1
  split at h
  · rename_i hc2
    split at h
    · rename_i hc3
      obtain ⟨t', h3, h4⟩ := pushBackT_ok h hb
      exact ⟨t', by simp only [emplaceT, if_neg hc1, if_pos hc2, if_pos hc3]; exact h3, h4⟩
    · rename_i hc3
      obtain ⟨b1, h1, h⟩ := Res.bind_eq_ok.1 h
      obtain ⟨b2, h2, h⟩ := Res.bind_eq_ok.1 h
      obtain ⟨b3, h3, h⟩ := Res.bind_eq_ok.1 h
      obtain ⟨b4, h4, h⟩ := Res.bind_eq_ok.1 h
      simp only [Res.ok.injEq] at h; subst h
      refine ⟨((t.make 1).finish 1).make 1, ?_, ?_⟩
      · simp only [emplaceT, if_neg hc1, if_pos hc2, if_neg hc3, Cells.constructJunkT, Cells.destroyT, Cells.constructT, h1, h2, h3, h4, Res.ok_bind]
      · simp only [Bal, Tally.make, Tally.finish] at *; omega
  · rename_i hc2
    simp only [Res.ok.injEq] at h; subst h
    exact ⟨t, by simp only [emplaceT, if_neg hc1, if_neg hc2], hb⟩

theorem insertRangeT_ok {triv : Bool} {s s' : SVec α} {p : Nat} {xs : List α} {t : Tally} {k : Nat}
    (h : s.insertRange triv p xs = .ok s') (hb : Bal t s.size k) :
    ∃ t', s.insertRangeT triv p xs t = .ok (s', t') ∧ Bal t' s'.size k := by
  rw [insertRange] at h
  split at h
  · simp at h
  rename_i hc1
  split at h
  · rename_i hc0
    simp only [Res.ok.injEq] at h; subst h
    exact ⟨t, by simp only [insertRangeT, if_neg hc1, if_pos hc0], hb⟩
  rename_i hc0
  split at h
  · rename_i hc2
    split at h
    · rename_i hc3
      obtain ⟨t', h3, h4⟩ := pushBackListT_ok h hb
      exact ⟨t', by simp only [insertRangeT, if_neg hc1, if_neg hc0, if_pos hc2, if_pos hc3]; exact h3, h4⟩
    · rename_i hc3
      obtain ⟨b1, h1, h⟩ := Res.bind_eq_ok.1 h
      obtain ⟨b2, h2, h⟩ := Res.bind_eq_ok.1 h
      obtain ⟨b3, h3, h⟩ := Res.bind_eq_ok.1 h
      simp only [Res.ok.injEq] at h; subst h
      refine ⟨t.make xs.length, ?_, hb.make _⟩
      simp only [insertRangeT, if_neg hc1, if_neg hc0, if_pos hc2, if_neg hc3, Cells.junkRangeT_ok t h1, h2, h3, Res.ok_bind]
  · rename_i hc2
    simp only [Res.ok.injEq] at h; subst h
    exact ⟨t, by simp only [insertRangeT, if_neg hc1, if_neg hc0, if_neg hc2], hb⟩

theorem eraseT_ok {triv : Bool} {s s' : SVec α} {p : Nat} {t : Tally} {k : Nat} (h : s.erase triv p = .ok s') (hb : Bal t s.size k) :
    ∃ t', s.eraseT triv p t = .ok (s', t') ∧ Bal t' s'.size (k + if p + 1 < s.size then 1 else 0) := by
  rw [erase] at h
  split at h
  · simp at h
  rename_i hc1
  split at h
  · rename_i hc2
    simp only [Res.ok.injEq] at h; subst h
    rw [if_neg (by omega)]
    exact ⟨t, by simp only [eraseT, if_neg hc1, if_pos hc2], hb⟩
  rename_i hc2
  split at h
  · rename_i hc3
    obtain ⟨t', h1, h2⟩ := popBackT_ok h hb
    rw [if_neg (by omega)]
    exact ⟨t', by simp only [eraseT, if_neg hc1, if_neg hc2, if_pos hc3]; exact h1, h2⟩
  · rename_i hc3
    obtain ⟨b, h1, h⟩ := Res.bind_eq_ok.1 h
    simp only [Res.ok.injEq] at h; subst h
    rw [if_pos (by omega)]
    refine ⟨t, by simp only [eraseT, if_neg hc1, if_neg hc2, if_neg hc3, h1, Res.ok_bind], ?_⟩
    simp only [Bal] at *; omega

theorem eraseRangeT_ok {triv : Bool} {s s' : SVec α} {b e : Nat} {t : Tally} {k : Nat} (h : s.eraseRange triv b e = .ok s')
    (hb : Bal t s.size k) : ∃ t', s.eraseRangeT triv b e t = .ok (s', t') ∧ Bal t' s'.size k := by
  rw [eraseRange] at h
  split at h
  · simp at h
  rename_i hc1
  split at h
  · rename_i hc3
    obtain ⟨t', h1, h2⟩ := cleanT_ok h hb
    exact ⟨t', by simp only [eraseRangeT, if_neg hc1, if_pos hc3]; exact h1, h2⟩
  rename_i hc3
  split at h
  · rename_i hc4
    obtain ⟨b1, h1, h⟩ := Res.bind_eq_ok.1 h
    obtain ⟨b2, h2, h⟩ := Res.bind_eq_ok.1 h
    simp only [Res.ok.injEq] at h; subst h
    refine ⟨t.finish (e - b), ?_, hb.finish (by omega)⟩
    simp only [eraseRangeT, if_neg hc1, if_neg hc3, if_pos hc4, Cells.destroyRangeT_ok t h1, h2, Res.ok_bind]
  · rename_i hc4
    simp only [Res.ok.injEq] at h; subst h
    exact ⟨t, by simp only [eraseRangeT, if_neg hc1, if_neg hc3, if_neg hc4], hb⟩

theorem resetT_ok {triv : Bool} {s s' : SVec α} {t : Tally} {k : Nat} (h : s.reset triv = .ok s') (hb : Bal t s.size k) :
    ∃ t', s.resetT triv t = .ok (s', t') ∧ Bal t' s'.size k := by
  rw [reset] at h
  obtain ⟨w, h1, h2⟩ := Res.bind_eq_ok.1 h
  simp only [Res.ok.injEq] at h2; subst h2
  obtain ⟨t', h3, h4⟩ := cleanT_ok h1 hb
  exact ⟨t', by simp only [resetT, h3, Res.ok_bind], h4⟩

end SVec
end Flame
