import Verif.Vector.Tally
import Verif.Vector.Props

/-! # Balance of constructor and destructor calls of `Vector`: lemmas

`t.made = t.ended + n + k`: of the objects constructed and not destroyed, `n` are the elements and `k` are lost. -/

namespace Flame
variable {α : Type u}

namespace Cells

theorem destroyRangeT_ok {triv : Bool} {n : Nat} : ∀ {b b' : Cells α} {i : Nat} (t : Tally), b.destroyRange triv i n = .ok b' →
    b.destroyRangeT triv i n t = .ok (b', t.finish n) := by
  induction n with
  | zero => intro b b' i t h; simp only [destroyRange, Res.ok.injEq] at h; subst h; rfl
  | succ n ih =>
    intro b b' i t h
    simp only [destroyRange] at h
    obtain ⟨c, h1, h2⟩ := Res.bind_eq_ok.1 h
    simp only [destroyRangeT, destroyT, h1, Res.ok_bind, ih (t.finish 1) h2]
    simp [Tally.finish]; omega

theorem junkRangeT_ok {n : Nat} : ∀ {b b' : Cells α} {i : Nat} (t : Tally), b.junkRange i n = .ok b' →
    b.junkRangeT i n t = .ok (b', t.make n) := by
  induction n with
  | zero => intro b b' i t h; simp only [junkRange, Res.ok.injEq] at h; subst h; rfl
  | succ n ih =>
    intro b b' i t h
    simp only [junkRange] at h
    obtain ⟨c, h1, h2⟩ := Res.bind_eq_ok.1 h
    simp only [junkRangeT, constructJunkT, h1, Res.ok_bind, ih (t.make 1) h2]
    simp [Tally.make]; omega

end Cells

namespace Vec

/-- Of the objects constructed and not destroyed `n` are elements and `k` are lost. -/
def Bal (t : Tally) (n k : Nat) : Prop := t.made = t.ended + n + k

theorem Bal.make {t : Tally} {n k : Nat} (h : Bal t n k) (m : Nat) : Bal (t.make m) (n + m) k := by
  simp only [Bal, Tally.make] at *; omega

theorem Bal.finish {t : Tally} {n k m : Nat} (h : Bal t n k) (hm : m ≤ n) : Bal (t.finish m) (n - m) k := by
  simp only [Bal, Tally.finish] at *; omega

theorem reserveT_bal {can re : Nat → Bool} {v : Vec α} {n k : Nat} {t : Tally} (h : Bal t v.size k) :
    (v.reserveT can re n t).1 = v.reserve can n ∧ Bal (v.reserveT can re n t).2 (v.reserve can n).size k := by
  refine ⟨rfl, ?_⟩
  rw [reserve_size]
  simp only [reserveT]
  split
  · simp only [Bal, Tally.make, Tally.finish] at *; omega
  · exact h

theorem pushBackT_ok {can re : Nat → Bool} {f : Nat} : ∀ {v v' : Vec α} {x : α} {t : Tally} {k : Nat},
    v.pushBack can f x = .ok v' → Bal t v.size k → ∃ t', v.pushBackT can re f x t = .ok (v', t') ∧ Bal t' v'.size k := by
  induction f with
  | zero => intro v v' x t k h; simp [pushBack] at h
  | succ f ih =>
    intro v v' x t k h hb
    rw [pushBack] at h
    split at h
    · rename_i hc
      obtain ⟨b, h1, h2⟩ := Res.bind_eq_ok.1 h
      simp only [Res.ok.injEq] at h2; subst h2
      refine ⟨t.make 1, ?_, hb.make 1⟩
      simp only [pushBackT, if_pos hc, Cells.constructT, h1, Res.ok_bind]
    · rename_i hc
      obtain ⟨t', h3, h4⟩ := ih h (reserveT_bal (re := re) hb).2
      exact ⟨t', by simp only [pushBackT, if_neg hc]; exact h3, h4⟩

theorem popBackT_ok {triv : Bool} {v v' : Vec α} {t : Tally} {k : Nat} (h : v.popBack triv = .ok v') (hb : Bal t v.size k) :
    ∃ t', v.popBackT triv t = .ok (v', t') ∧ Bal t' v'.size k := by
  rw [popBack] at h
  split at h
  · rename_i hc
    obtain ⟨b, h1, h2⟩ := Res.bind_eq_ok.1 h
    simp only [Res.ok.injEq] at h2; subst h2
    refine ⟨t.finish 1, ?_, hb.finish (by omega)⟩
    simp only [popBackT, if_pos hc, Cells.destroyT, h1, Res.ok_bind]
  · rename_i hc
    simp only [Res.ok.injEq] at h; subst h
    exact ⟨t, by simp only [popBackT, if_neg hc], hb⟩

theorem cleanT_ok {triv : Bool} {v v' : Vec α} {t : Tally} {k : Nat} (h : v.clean triv = .ok v') (hb : Bal t v.size k) :
    ∃ t', v.cleanT triv t = .ok (v', t') ∧ Bal t' v'.size k := by
  rw [clean] at h
  obtain ⟨b, h1, h2⟩ := Res.bind_eq_ok.1 h
  simp only [Res.ok.injEq] at h2; subst h2
  refine ⟨t.finish v.size, by simp only [cleanT, Cells.destroyRangeT_ok t h1, Res.ok_bind], ?_⟩
  have := hb.finish (Nat.le_refl v.size)
  simpa using this

theorem insertT_ok {triv : Bool} {can re : Nat → Bool} {f : Nat} : ∀ {v v' : Vec α} {p : Nat} {x : α} {t : Tally} {k : Nat},
    v.insert triv can f p x = .ok v' → Bal t v.size k →
    ∃ t', v.insertT triv can re f p x t = .ok (v', t') ∧ Bal t' v'.size k := by
  induction f with
  | zero => intro v v' p x t k h; simp [insert] at h
  | succ f ih =>
    intro v v' p x t k h hb
    rw [insert] at h
    split at h
    · simp at h
    rename_i hc1
    split at h
    · rename_i hc2
      split at h
      · rename_i hc3
        obtain ⟨t', h3, h4⟩ := pushBackT_ok (re := re) h hb
        exact ⟨t', by simp only [insertT, if_neg hc1, if_pos hc2, if_pos hc3]; exact h3, h4⟩
      · rename_i hc3
        obtain ⟨b1, h1, h⟩ := Res.bind_eq_ok.1 h
        obtain ⟨b2, h2, h⟩ := Res.bind_eq_ok.1 h
        obtain ⟨b3, h3, h⟩ := Res.bind_eq_ok.1 h
        simp only [Res.ok.injEq] at h; subst h
        refine ⟨t.make 1, ?_, hb.make 1⟩
        simp only [insertT, if_neg hc1, if_pos hc2, if_neg hc3, Cells.constructJunkT, h1, h2, h3, Res.ok_bind]
    · rename_i hc2
      obtain ⟨t', h3, h4⟩ := ih h (reserveT_bal (re := re) hb).2
      exact ⟨t', by simp only [insertT, if_neg hc1, if_neg hc2]; exact h3, h4⟩

theorem emplaceT_ok {triv : Bool} {can re : Nat → Bool} {f : Nat} : ∀ {v v' : Vec α} {p : Nat} {x : α} {t : Tally} {k : Nat},
    v.emplace triv can f p x = .ok v' → Bal t v.size k →
    ∃ t', v.emplaceT triv can re f p x t = .ok (v', t') ∧ Bal t' v'.size (k + if p < v.size then 1 else 0) := by
  induction f with
  | zero => intro v v' p x t k h; simp [emplace] at h
  | succ f ih =>
    intro v v' p x t k h hb
    rw [emplace] at h
    split at h
    · simp at h
    rename_i hc1
    split at h
    · rename_i hc2
      split at h
      · rename_i hc3
        obtain ⟨t', h3, h4⟩ := pushBackT_ok (re := re) h hb
        rw [if_neg (by omega)]
        exact ⟨t', by simp only [emplaceT, if_neg hc1, if_pos hc2, if_pos hc3]; exact h3, h4⟩
      · rename_i hc3
        obtain ⟨b1, h1, h⟩ := Res.bind_eq_ok.1 h
        obtain ⟨b2, h2, h⟩ := Res.bind_eq_ok.1 h
        obtain ⟨b3, h3, h⟩ := Res.bind_eq_ok.1 h
        simp only [Res.ok.injEq] at h; subst h
        rw [if_pos (by omega)]
        refine ⟨(t.make 1).make 1, ?_, ?_⟩
        · simp only [emplaceT, if_neg hc1, if_pos hc2, if_neg hc3, Cells.constructJunkT, Cells.constructT, h1, h2, h3, Res.ok_bind]
        · simp only [Bal, Tally.make] at *; omega
    · rename_i hc2
      obtain ⟨t', h3, h4⟩ := ih h (reserveT_bal (re := re) hb).2
      rw [reserve_size] at h4
      exact ⟨t', by simp only [emplaceT, if_neg hc1, if_neg hc2]; exact h3, h4⟩

theorem pushBackListT_ok {can re : Nat → Bool} {f : Nat} {xs : List α} : ∀ {v v' : Vec α} {t : Tally} {k : Nat},
    v.pushBackList can f xs = .ok v' → Bal t v.size k →
    ∃ t', v.pushBackListT can re f xs t = .ok (v', t') ∧ Bal t' v'.size k := by
  induction xs with
  | nil => intro v v' t k h hb; simp only [pushBackList, Res.ok.injEq] at h; subst h; exact ⟨t, rfl, hb⟩
  | cons x xs ih =>
    intro v v' t k h hb
    simp only [pushBackList] at h
    obtain ⟨w, h1, h2⟩ := Res.bind_eq_ok.1 h
    obtain ⟨t1, h3, h4⟩ := pushBackT_ok (re := re) h1 hb
    obtain ⟨t2, h5, h6⟩ := ih h2 h4
    exact ⟨t2, by simp only [pushBackListT, h3, Res.ok_bind]; exact h5, h6⟩

theorem insertRangeT_ok {triv : Bool} {can re : Nat → Bool} {f : Nat} : ∀ {v v' : Vec α} {p : Nat} {xs : List α} {t : Tally} {k : Nat},
    v.insertRange triv can f p xs = .ok v' → Bal t v.size k →
    ∃ t', v.insertRangeT triv can re f p xs t = .ok (v', t') ∧ Bal t' v'.size k := by
  induction f with
  | zero => intro v v' p x t k h; simp [insertRange] at h
  | succ f ih =>
    intro v v' p xs t k h hb
    rw [insertRange] at h
    split at h
    · simp at h
    rename_i hc1
    split at h
    · rename_i hc0
      simp only [Res.ok.injEq] at h; subst h
      exact ⟨t, by simp only [insertRangeT, if_neg hc1, if_pos hc0], hb⟩
    rename_i hc0
    split at h
    · rename_i hc2
      split at h
      · rename_i hc3
        obtain ⟨t', h3, h4⟩ := pushBackListT_ok (re := re) h hb
        exact ⟨t', by simp only [insertRangeT, if_neg hc1, if_neg hc0, if_pos hc2, if_pos hc3]; exact h3, h4⟩
      · rename_i hc3
        obtain ⟨b1, h1, h⟩ := Res.bind_eq_ok.1 h
        obtain ⟨b2, h2, h⟩ := Res.bind_eq_ok.1 h
        obtain ⟨b3, h3, h⟩ := Res.bind_eq_ok.1 h
        simp only [Res.ok.injEq] at h; subst h
        refine ⟨t.make xs.length, ?_, hb.make _⟩
        simp only [insertRangeT, if_neg hc1, if_neg hc0, if_pos hc2, if_neg hc3, Cells.junkRangeT_ok t h1, h2, h3, Res.ok_bind]
    · rename_i hc2
      obtain ⟨t', h3, h4⟩ := ih h (reserveT_bal (re := re) hb).2
      exact ⟨t', by simp only [insertRangeT, if_neg hc1, if_neg hc0, if_neg hc2]; exact h3, h4⟩

theorem eraseT_ok {triv : Bool} {v v' : Vec α} {p : Nat} {t : Tally} {k : Nat} (h : v.erase triv p = .ok v') (hb : Bal t v.size k) :
    ∃ t', v.eraseT triv p t = .ok (v', t') ∧ Bal t' v'.size (k + if p + 1 < v.size then 1 else 0) := by
  rw [erase] at h
  split at h
  · simp at h
  rename_i hc1
  split at h
  · rename_i hc2
    simp only [Res.ok.injEq] at h; subst h
    rw [if_neg (by omega)]
    exact ⟨t, by simp only [eraseT, if_neg hc1, if_pos hc2], hb⟩
  rename_i hc2
  split at h
  · rename_i hc3
    obtain ⟨t', h1, h2⟩ := popBackT_ok h hb
    rw [if_neg (by omega)]
    exact ⟨t', by simp only [eraseT, if_neg hc1, if_neg hc2, if_pos hc3]; exact h1, h2⟩
  · rename_i hc3
    obtain ⟨b, h1, h⟩ := Res.bind_eq_ok.1 h
    simp only [Res.ok.injEq] at h; subst h
    rw [if_pos (by omega)]
    refine ⟨t, by simp only [eraseT, if_neg hc1, if_neg hc2, if_neg hc3, h1, Res.ok_bind], ?_⟩
    simp only [Bal] at *; omega

theorem eraseRangeT_ok {triv : Bool} {v v' : Vec α} {b e : Nat} {t : Tally} {k : Nat} (h : v.eraseRange triv b e = .ok v')
    (hb : Bal t v.size k) : ∃ t', v.eraseRangeT triv b e t = .ok (v', t') ∧ Bal t' v'.size k := by
  rw [eraseRange] at h
  split at h
  · simp at h
  rename_i hc1
  split at h
  · rename_i hc2
    simp only [Res.ok.injEq] at h; subst h
    exact ⟨t, by simp only [eraseRangeT, if_neg hc1, if_pos hc2], hb⟩
  rename_i hc2
  split at h
  · rename_i hc3
    obtain ⟨t', h1, h2⟩ := cleanT_ok h hb
    exact ⟨t', by simp only [eraseRangeT, if_neg hc1, if_neg hc2, if_pos hc3]; exact h1, h2⟩
  rename_i hc3
  split at h
  · rename_i hc4
    obtain ⟨b1, h1, h⟩ := Res.bind_eq_ok.1 h
    obtain ⟨b2, h2, h⟩ := Res.bind_eq_ok.1 h
    simp only [Res.ok.injEq] at h; subst h
    refine ⟨t.finish (e - b), ?_, hb.finish (by omega)⟩
    simp only [eraseRangeT, if_neg hc1, if_neg hc2, if_neg hc3, if_pos hc4, Cells.destroyRangeT_ok t h1, h2, Res.ok_bind]
  · rename_i hc4
    simp only [Res.ok.injEq] at h; subst h
    exact ⟨t, by simp only [eraseRangeT, if_neg hc1, if_neg hc2, if_neg hc3, if_neg hc4], hb⟩

end Vec
end Flame
