import Verif.Own.Spec

/-!
# Ownership bookkeeping that allows leaks

`Held` is `Own.Ledger` without "every existing object has an owner": nothing wrong is ever destroyed, but objects
may be forgotten.  `Fine` is the effect of an operation that never touches forgotten objects; `Tidy` the effect of
an operation that forgets none.
-/

namespace Flame.Life
open Flame.Own

structure Held (own : Nat → Option Nat) (l : List Ev) : Prop where
  proper : Proper l
  ownedLive : ∀ i r, own i = some r → Live r l
  unique : ∀ i j r, own i = some r → own j = some r → i = j

/-- `r` exists but no variable is responsible for it. -/
def Orphan (own : Nat → Option Nat) (l : List Ev) (r : Nat) : Prop := Live r l ∧ ∀ i, own i ≠ some r

theorem Held.ledger {own : Nat → Option Nat} {l : List Ev} (h : Held own l) (hn : ∀ r, ¬ Orphan own l r) :
    Ledger own l := by
  refine ⟨h.proper, h.ownedLive, h.unique, fun r hr => ?_⟩
  apply Classical.byContradiction
  intro hne
  exact hn r ⟨hr, fun i hi => hne ⟨i, hi⟩⟩

theorem Ledger.held {own : Nat → Option Nat} {l : List Ev} (h : Ledger own l) :
    Held own l ∧ ∀ r, ¬ Orphan own l r := by
  refine ⟨⟨h.proper, h.ownedLive, h.unique⟩, fun r hr => ?_⟩
  obtain ⟨i, hi⟩ := h.noOrphan r hr.1
  exact hr.2 i hi

theorem Held.init : Held (fun _ => none) [] := ⟨trivial, by simp, by simp⟩

/-- Bookkeeping stays in order and forgotten objects stay forgotten. -/
def Fine (own : Nat → Option Nat) (l : List Ev) (own' : Nat → Option Nat) (l' : List Ev) : Prop :=
  Held own l → Held own' l' ∧ ∀ r, Orphan own l r → Orphan own' l' r

/-- Nothing is forgotten. -/
def Tidy (own : Nat → Option Nat) (l : List Ev) (own' : Nat → Option Nat) (l' : List Ev) : Prop :=
  Held own l → ∀ r, Orphan own' l' r → Orphan own l r

theorem Fine.refl {own : Nat → Option Nat} {l : List Ev} : Fine own l own l := fun h => ⟨h, fun _ h => h⟩
theorem Tidy.refl {own : Nat → Option Nat} {l : List Ev} : Tidy own l own l := fun _ _ h => h

theorem Fine.trans {a b c : Nat → Option Nat} {l m n : List Ev} (h1 : Fine a l b m) (h2 : Fine b m c n) :
    Fine a l c n := fun h => ⟨(h2 (h1 h).1).1, fun r hr => (h2 (h1 h).1).2 r ((h1 h).2 r hr)⟩

theorem Tidy.trans {a b c : Nat → Option Nat} {l m n : List Ev} (hf : Fine a l b m) (h1 : Tidy a l b m)
    (h2 : Tidy b m c n) : Tidy a l c n := fun h r hr => h1 h r (h2 (hf h).1 r hr)

theorem Fine.congr {own own' own'' : Nat → Option Nat} {l l' : List Ev} (h : Fine own l own' l')
    (e : ∀ i, own'' i = own' i) : Fine own l own'' l' := by
  have : own'' = own' := funext e
  rw [this]; exact h

theorem Tidy.congr {own own' own'' : Nat → Option Nat} {l l' : List Ev} (h : Tidy own l own' l')
    (e : ∀ i, own'' i = own' i) : Tidy own l own'' l' := by
  have : own'' = own' := funext e
  rw [this]; exact h

/-- Construction of a fresh object by a variable that owns nothing. -/
theorem fine_make {own : Nat → Option Nat} {l : List Ev} {i r : Nat} (hi : own i = none)
    (h1 : .made r ∉ l) (h2 : .closed r ∉ l) :
    Fine own l (upd own i (some r)) (.made r :: l) ∧ Tidy own l (upd own i (some r)) (.made r :: l) := by
  constructor
  · intro h
    refine ⟨⟨⟨h1, h2, h.proper⟩, ?_, ?_⟩, ?_⟩
    · intro k q hk
      by_cases hki : k = i
      · subst hki
        simp only [upd_self, Option.some.injEq] at hk
        subst hk
        exact ⟨by simp, by simpa using h2⟩
      · rw [upd_ne _ _ hki] at hk
        have := h.ownedLive k q hk
        exact ⟨List.mem_cons_of_mem _ this.1, by simpa using this.2⟩
    · intro a b q ha hb
      by_cases hai : a = i
      · by_cases hbi : b = i
        · omega
        · subst hai
          simp only [upd_self, Option.some.injEq] at ha
          subst ha
          rw [upd_ne _ _ hbi] at hb
          exact absurd (h.ownedLive b _ hb).1 h1
      · by_cases hbi : b = i
        · subst hbi
          simp only [upd_self, Option.some.injEq] at hb
          subst hb
          rw [upd_ne _ _ hai] at ha
          exact absurd (h.ownedLive a _ ha).1 h1
        · rw [upd_ne _ _ hai] at ha
          rw [upd_ne _ _ hbi] at hb
          exact h.unique a b q ha hb
    · intro q hq
      refine ⟨⟨List.mem_cons_of_mem _ hq.1.1, by simpa using hq.1.2⟩, fun k hk => ?_⟩
      by_cases hki : k = i
      · subst hki
        simp only [upd_self, Option.some.injEq] at hk
        subst hk
        exact h1 hq.1.1
      · rw [upd_ne _ _ hki] at hk
        exact hq.2 k hk
  · intro _ q hq
    have hqr : q ≠ r := by
      intro e
      subst e
      exact hq.2 i (by simp)
    refine ⟨⟨?_, fun hc => hq.1.2 (List.mem_cons_of_mem _ hc)⟩, fun k hk => ?_⟩
    · rcases List.mem_cons.mp hq.1.1 with h' | h'
      · injection h' with h'; exact absurd h' hqr
      · exact h'
    · by_cases hki : k = i
      · subst hki; rw [hi] at hk; cases hk
      · exact hq.2 k (by rw [upd_ne _ _ hki]; exact hk)

/-- Destruction of an owned object. -/
theorem fine_close {own : Nat → Option Nat} {l : List Ev} {i r : Nat} (hi : own i = some r) :
    Fine own l (upd own i none) (.closed r :: l) ∧ Tidy own l (upd own i none) (.closed r :: l) := by
  constructor
  · intro h
    refine ⟨⟨⟨h.ownedLive i r hi, h.proper⟩, ?_, ?_⟩, ?_⟩
    · intro k q hk
      by_cases hki : k = i
      · subst hki; simp at hk
      · rw [upd_ne _ _ hki] at hk
        have := h.ownedLive k q hk
        refine ⟨List.mem_cons_of_mem _ this.1, ?_⟩
        intro hc
        rcases List.mem_cons.mp hc with h' | h'
        · injection h' with h'
          subst h'
          exact hki (h.unique k i q hk hi)
        · exact this.2 h'
    · intro a b q ha hb
      by_cases hai : a = i
      · subst hai; simp at ha
      · by_cases hbi : b = i
        · subst hbi; simp at hb
        · rw [upd_ne _ _ hai] at ha
          rw [upd_ne _ _ hbi] at hb
          exact h.unique a b q ha hb
    · intro q hq
      refine ⟨⟨List.mem_cons_of_mem _ hq.1.1, ?_⟩, fun k hk => ?_⟩
      · intro hc
        rcases List.mem_cons.mp hc with h' | h'
        · injection h' with h'
          subst h'
          exact hq.2 i hi
        · exact hq.1.2 h'
      · by_cases hki : k = i
        · subst hki; simp at hk
        · rw [upd_ne _ _ hki] at hk
          exact hq.2 k hk
  · intro _ q hq
    refine ⟨⟨?_, fun hc => hq.1.2 (List.mem_cons_of_mem _ hc)⟩, fun k hk => ?_⟩
    · rcases List.mem_cons.mp hq.1.1 with h' | h'
      · cases h'
      · exact h'
    · by_cases hki : k = i
      · subst hki
        rw [hi] at hk
        injection hk with hk
        subst hk
        exact hq.1.2 (by simp)
      · exact hq.2 k (by rw [upd_ne _ _ hki]; exact hk)

/-- Reading an owned object. -/
theorem fine_use {own : Nat → Option Nat} {l : List Ev} {i r : Nat} (hi : own i = some r) :
    Fine own l own (.used r :: l) ∧ Tidy own l own (.used r :: l) := by
  constructor
  · intro h
    refine ⟨⟨⟨h.ownedLive i r hi, h.proper⟩, ?_, h.unique⟩, ?_⟩
    · intro k q hk
      have := h.ownedLive k q hk
      exact ⟨List.mem_cons_of_mem _ this.1, by simpa using this.2⟩
    · intro q hq
      exact ⟨⟨List.mem_cons_of_mem _ hq.1.1, by simpa using hq.1.2⟩, hq.2⟩
  · intro _ q hq
    exact ⟨⟨by simpa using hq.1.1, by simpa using hq.1.2⟩, hq.2⟩

/-- A variable stops being responsible for its object. -/
theorem fine_forget {own : Nat → Option Nat} {l : List Ev} (i : Nat) : Fine own l (upd own i none) l := by
  intro h
  refine ⟨⟨h.proper, ?_, ?_⟩, fun r hr => ⟨hr.1, fun k hk => ?_⟩⟩
  · intro k q hk
    by_cases hki : k = i
    · subst hki; simp at hk
    · rw [upd_ne _ _ hki] at hk; exact h.ownedLive k q hk
  · intro a b q ha hb
    by_cases hai : a = i
    · subst hai; simp at ha
    · by_cases hbi : b = i
      · subst hbi; simp at hb
      · rw [upd_ne _ _ hai] at ha
        rw [upd_ne _ _ hbi] at hb
        exact h.unique a b q ha hb
  · by_cases hki : k = i
    · subst hki; simp at hk
    · rw [upd_ne _ _ hki] at hk; exact hr.2 k hk

/-- … and that object is then an orphan. -/
theorem orphan_forget {own : Nat → Option Nat} {l : List Ev} (h : Held own l) {i r : Nat} (hi : own i = some r) :
    Orphan (upd own i none) l r := by
  refine ⟨h.ownedLive i r hi, fun k hk => ?_⟩
  by_cases hki : k = i
  · subst hki; simp at hk
  · rw [upd_ne _ _ hki] at hk
    exact hki (h.unique k i r hk hi)

/-- A forgotten object is never destroyed. -/
theorem Orphan.not_closed {own : Nat → Option Nat} {l : List Ev} {r : Nat} (h : Orphan own l r) :
    .made r ∈ l ∧ l.count (.closed r) = 0 := ⟨h.1.1, List.count_eq_zero.mpr h.1.2⟩

end Flame.Life
