import Verif.Basic

/-!
# Data races (specification)

What the language calls a data race, independently of any of the models: an execution is a list of synchronising operations and accesses to
variables; an unlock happens before the later locks of the same lock, what one thread does happens in its order, and this is transitive.  Two
accesses of different threads to one variable, one of them a write, race if neither happens before the other; the behaviour is then undefined.
-/

namespace Flame.Conc.Race

inductive Act where
  /-- a lock is taken -/
  | acq (l : Nat)
  /-- a lock is given up -/
  | rel (l : Nat)
  | read (x : Nat)
  | write (x : Nat)
  deriving DecidableEq, Repr

/-- Thread and what it does, oldest first. -/
abbrev Trace := List (Nat × Act)

/-- Position `i` is ordered before position `j` directly: the same thread, or an unlock and a later lock. -/
def Before (τ : Trace) (i j : Nat) : Prop :=
  i < j ∧ ∃ p q, τ[i]? = some p ∧ τ[j]? = some q ∧ (p.1 = q.1 ∨ ∃ l, p.2 = .rel l ∧ q.2 = .acq l)

/-- Happens before. -/
inductive HB (τ : Trace) : Nat → Nat → Prop
  | one {i j} : Before τ i j → HB τ i j
  | more {i j k} : Before τ i j → HB τ j k → HB τ i k

/-- An access to `x`. -/
def Touches (x : Nat) (a : Act) : Prop := a = .read x ∨ a = .write x

/-- There is a data race on variable `x`. -/
def RaceOn (τ : Trace) (x : Nat) : Prop :=
  ∃ i j p q, i < j ∧ τ[i]? = some p ∧ τ[j]? = some q ∧ p.1 ≠ q.1 ∧ Touches x p.2 ∧ Touches x q.2 ∧ (p.2 = .write x ∨ q.2 = .write x) ∧ ¬ HB τ i j

/-- Who holds lock `l` after `τ`. -/
def hold (l : Nat) (τ : Trace) : Option Nat :=
  τ.foldl (fun h e => if e.2 = .acq l then some e.1 else if e.2 = .rel l then none else h) none

/-- Lock `l` works and is used properly: it is taken only when free and given up only by its holder. -/
def WellLocked (l : Nat) (τ : Trace) : Prop :=
  ∀ n t, (τ[n]? = some (t, .acq l) → hold l (τ.take n) = none) ∧ (τ[n]? = some (t, .rel l) → hold l (τ.take n) = some t)

/-- Variable `x` is accessed only by the holder of lock `l`. -/
def Guarded (l x : Nat) (τ : Trace) : Prop :=
  ∀ n t a, τ[n]? = some (t, a) → Touches x a → hold l (τ.take n) = some t

theorem HB.lt {τ : Trace} {i j : Nat} (h : HB τ i j) : i < j := by
  induction h with
  | one h => exact h.1
  | more h _ ih => exact Nat.lt_trans h.1 ih

theorem hold_snoc (l : Nat) (τ : Trace) (e : Nat × Act) :
    hold l (τ ++ [e]) = if e.2 = .acq l then some e.1 else if e.2 = .rel l then none else hold l τ := by
  simp [hold]

theorem hold_succ (l : Nat) {τ : Trace} {n : Nat} {e : Nat × Act} (h : τ[n]? = some e) :
    hold l (τ.take (n + 1)) = if e.2 = .acq l then some e.1 else if e.2 = .rel l then none else hold l (τ.take n) := by
  rw [List.take_add_one, h, Option.toList_some, hold_snoc]

theorem hold_past (l : Nat) {τ : Trace} {n : Nat} (h : τ[n]? = none) : hold l (τ.take (n + 1)) = hold l (τ.take n) := by
  rw [List.take_add_one, h]; simp

/-- A lock that changes hands was given up by its holder. -/
theorem given_up {l : Nat} {τ : Trace} (hw : WellLocked l τ) {t i : Nat} (hi : hold l (τ.take i) = some t) :
    ∀ {j}, i ≤ j → hold l (τ.take j) ≠ some t → ∃ k, i ≤ k ∧ k < j ∧ τ[k]? = some (t, .rel l) := by
  intro j hij hne
  induction j with
  | zero => simp only [Nat.le_zero] at hij; subst hij; exact absurd hi hne
  | succ j ih =>
    by_cases he : i = j + 1
    · subst he; exact absurd hi hne
    have hij' : i ≤ j := by omega
    by_cases hj : hold l (τ.take j) = some t
    · cases e : τ[j]? with
      | none => rw [hold_past l e] at hne; exact absurd hj hne
      | some p =>
        obtain ⟨u, a⟩ := p
        rw [hold_succ l e] at hne
        by_cases ha : a = .acq l
        · subst ha
          have := (hw j u).1 e
          rw [hj] at this; cases this
        · by_cases hr : a = .rel l
          · subst hr
            have := (hw j u).2 e
            rw [hj] at this; cases this
            exact ⟨j, hij', Nat.lt_succ_self j, e⟩
          · simp [ha, hr] at hne; exact absurd hj hne
    · obtain ⟨k, h1, h2, h3⟩ := ih hij' hj
      exact ⟨k, h1, by omega, h3⟩

/-- A lock held by a thread was taken by it. -/
theorem taken {l : Nat} {τ : Trace} {u i : Nat} (hi : hold l (τ.take i) ≠ some u) :
    ∀ {j}, i ≤ j → hold l (τ.take j) = some u → ∃ k, i ≤ k ∧ k < j ∧ τ[k]? = some (u, .acq l) := by
  intro j hij hj
  induction j with
  | zero => simp only [Nat.le_zero] at hij; subst hij; exact absurd hj hi
  | succ j ih =>
    by_cases he : i = j + 1
    · subst he; exact absurd hj hi
    have hij' : i ≤ j := by omega
    by_cases h : hold l (τ.take j) = some u
    · obtain ⟨k, h1, h2, h3⟩ := ih hij' h
      exact ⟨k, h1, by omega, h3⟩
    · cases e : τ[j]? with
      | none => rw [hold_past l e] at hj; exact absurd hj h
      | some p =>
        obtain ⟨v, a⟩ := p
        rw [hold_succ l e] at hj
        by_cases ha : a = .acq l
        · subst ha
          simp at hj; subst hj
          exact ⟨j, hij', Nat.lt_succ_self j, e⟩
        · by_cases hr : a = .rel l
          · simp [hr] at hj
          · simp [ha, hr] at hj; exact absurd hj h

/-- What is accessed only under a lock is free of races. -/
theorem guarded_no_race {l x : Nat} {τ : Trace} (hw : WellLocked l τ) (hg : Guarded l x τ) : ¬ RaceOn τ x := by
  rintro ⟨i, j, ⟨t, a⟩, ⟨u, b⟩, hij, hi, hj, hne, ha, hb, -, hnb⟩
  have h1 := hg i t a hi ha
  have h2 := hg j u b hj hb
  obtain ⟨k, hk1, hk2, hk3⟩ := given_up hw h1 (Nat.le_of_lt hij) (by rw [h2]; intro e; exact hne (Option.some.inj e).symm)
  obtain ⟨m, hm1, hm2, hm3⟩ := taken (l := l) (u := u) (i := k + 1) (by rw [hold_succ l hk3]; simp) (by omega) h2
  have hik : i < k := by
    rcases Nat.lt_or_ge i k with h | h
    · exact h
    · have : i = k := by omega
      subst this
      rw [hi] at hk3
      cases hk3
      rcases ha with h | h <;> cases h
  exact hnb (.more ⟨hik, _, _, hi, hk3, .inl rfl⟩ (.more ⟨by omega, _, _, hk3, hm3, .inr ⟨l, rfl, rfl⟩⟩ (.one ⟨hm2, _, _, hm3, hj, .inl rfl⟩)))

theorem WellLocked.snoc {l : Nat} {τ : Trace} (h : WellLocked l τ) {e : Nat × Act}
    (ha : e.2 = .acq l → hold l τ = none) (hr : e.2 = .rel l → hold l τ = some e.1) : WellLocked l (τ ++ [e]) := by
  intro n t
  rcases Nat.lt_trichotomy n τ.length with hn | hn | hn
  · rw [List.getElem?_append_left hn, List.take_append_of_le_length (Nat.le_of_lt hn)]
    exact h n t
  · subst hn
    rw [List.getElem?_append_right (Nat.le_refl _), List.take_append_of_le_length (Nat.le_refl _), List.take_length]
    simp only [Nat.sub_self, List.getElem?_cons_zero, Option.some.injEq]
    exact ⟨fun e' => ha (by rw [e']), fun e' => by rw [hr (by rw [e']), e']⟩
  · have : (τ ++ [e])[n]? = none := by rw [List.getElem?_eq_none]; simp; omega
    rw [this]
    exact ⟨fun e => (nomatch e), fun e => (nomatch e)⟩

theorem Guarded.snoc {l x : Nat} {τ : Trace} (h : Guarded l x τ) {e : Nat × Act} (he : Touches x e.2 → hold l τ = some e.1) :
    Guarded l x (τ ++ [e]) := by
  intro n t a hn ha
  rcases Nat.lt_trichotomy n τ.length with hlt | hlt | hlt
  · rw [List.getElem?_append_left hlt] at hn
    rw [List.take_append_of_le_length (Nat.le_of_lt hlt)]
    exact h n t a hn ha
  · subst hlt
    rw [List.getElem?_append_right (Nat.le_refl _)] at hn
    rw [List.take_append_of_le_length (Nat.le_refl _), List.take_length]
    simp only [Nat.sub_self, List.getElem?_cons_zero, Option.some.injEq] at hn
    subst hn
    exact he ha
  · have : (τ ++ [e])[n]? = none := by rw [List.getElem?_eq_none]; simp; omega
    rw [this] at hn; cases hn

/-- Two neighbouring accesses race. -/
theorem race_last {τ : Trace} {x t u : Nat} {a b : Act} (hne : t ≠ u) (ha : Touches x a) (hb : Touches x b) (hw : a = .write x ∨ b = .write x) :
    RaceOn (τ ++ [(t, a), (u, b)]) x := by
  refine ⟨τ.length, τ.length + 1, (t, a), (u, b), Nat.lt_succ_self _, by simp, ?_, hne, ha, hb, hw, ?_⟩
  · rw [List.getElem?_append_right (Nat.le_succ _)]; simp
  · intro h
    have direct : Before (τ ++ [(t, a), (u, b)]) τ.length (τ.length + 1) := by
      cases h with
      | one h => exact h
      | more h1 h2 => have := h1.1; have := h2.lt; omega
    obtain ⟨-, p, q, hp, hq, h⟩ := direct
    rw [List.getElem?_append_right (Nat.le_refl _)] at hp
    rw [List.getElem?_append_right (Nat.le_succ _)] at hq
    simp at hp hq
    subst hp hq
    rcases h with h | ⟨l, h, -⟩
    · exact hne h
    · simp only at h
      subst h
      rcases ha with h | h <;> cases h

/-- Without any synchronisation, everything that is written by one thread and accessed by another is raced for. -/
theorem race_iff_unsync {τ : Trace} (hn : ∀ e ∈ τ, ∀ l, e.2 ≠ .acq l) (x : Nat) :
    RaceOn τ x ↔ ∃ p ∈ τ, ∃ q ∈ τ, p.1 ≠ q.1 ∧ p.2 = .write x ∧ Touches x q.2 := by
  have hb : ∀ {i j p q}, HB τ i j → τ[i]? = some p → τ[j]? = some q → p.1 = q.1 := by
    intro i j p q h
    induction h generalizing p with
    | one h =>
      intro hp hq
      obtain ⟨-, p', q', hp', hq', h⟩ := h
      rw [hp] at hp'; rw [hq] at hq'
      cases hp'; cases hq'
      rcases h with h | ⟨l, -, h⟩
      · exact h
      · exact absurd h (hn q (List.mem_of_getElem? hq) l)
    | more h _ ih =>
      intro hp hq
      obtain ⟨-, p', q', hp', hq', h⟩ := h
      rw [hp] at hp'
      cases hp'
      rcases h with h | ⟨l, -, h⟩
      · rw [h]; exact ih hq' hq
      · exact absurd h (hn q' (List.mem_of_getElem? hq') l)
  constructor
  · rintro ⟨i, j, p, q, -, hi, hj, hne, ha, hb', hw | hw, -⟩
    · exact ⟨p, List.mem_of_getElem? hi, q, List.mem_of_getElem? hj, hne, hw, hb'⟩
    · exact ⟨q, List.mem_of_getElem? hj, p, List.mem_of_getElem? hi, hne.symm, hw, ha⟩
  · rintro ⟨p, hp, q, hq, hne, hw, ht⟩
    obtain ⟨i, hi⟩ := List.getElem?_of_mem hp
    obtain ⟨j, hj⟩ := List.getElem?_of_mem hq
    rcases Nat.lt_trichotomy i j with h | h | h
    · exact ⟨i, j, p, q, h, hi, hj, hne, .inr hw, ht, .inl hw, fun h' => hne (hb h' hi hj)⟩
    · subst h; rw [hi] at hj; cases hj; exact absurd rfl hne
    · exact ⟨j, i, q, p, h, hj, hi, hne.symm, ht, .inr hw, .inr hw, fun h' => hne (hb h' hj hi).symm⟩

end Flame.Conc.Race
