import Verif.Basic

/-!
# What correct ownership means

Shared by the properties about pointers, sockets, libraries, native mutexes and PKCS#11 mutexes.  Nothing here
refers to the code: a run of a program produces a log of events (newest first), and the log alone decides
whether resources were handled correctly.
-/

namespace Flame.Own

/-- What the outside world sees happening to numbered resources. -/
inductive Ev where
  /-- resource `r` comes into existence -/
  | made (r : Nat)
  /-- resource `r` is accessed -/
  | used (r : Nat)
  /-- resource `r` is released -/
  | closed (r : Nat)
  /-- something that does not belong to the program is released (for example descriptor 0) -/
  | closedForeign
  /-- a release is requested for "nothing" (a null context, descriptor −1, a descriptor that is not open) -/
  | closedNothing
  deriving DecidableEq, Repr

/-- `r` exists: it was made and has not been released. -/
def Live (r : Nat) (l : List Ev) : Prop := .made r ∈ l ∧ .closed r ∉ l

instance (r : Nat) (l : List Ev) : Decidable (Live r l) := inferInstanceAs (Decidable (_ ∧ _))

/-- A correct log: each resource is made at most once, and every use and every release hits a resource that
exists at that moment; nothing foreign is ever released. -/
def Proper : List Ev → Prop
  | [] => True
  | .made r :: l => .made r ∉ l ∧ .closed r ∉ l ∧ Proper l
  | .used r :: l => Live r l ∧ Proper l
  | .closed r :: l => Live r l ∧ Proper l
  | .closedForeign :: _ => False
  | .closedNothing :: l => Proper l

def Proper.dec : (l : List Ev) → Decidable (Proper l)
  | [] => .isTrue trivial
  | .made r :: l => by
      unfold Proper; exact @instDecidableAnd _ _ _ (@instDecidableAnd _ _ _ (Proper.dec l))
  | .used r :: l => by unfold Proper; exact @instDecidableAnd _ _ _ (Proper.dec l)
  | .closed r :: l => by unfold Proper; exact @instDecidableAnd _ _ _ (Proper.dec l)
  | .closedForeign :: _ => .isFalse id
  | .closedNothing :: l => by unfold Proper; exact Proper.dec l

instance (l : List Ev) : Decidable (Proper l) := Proper.dec l

/-- No resource is left behind. -/
def NoLeak (l : List Ev) : Prop := ∀ r, .made r ∈ l → .closed r ∈ l

/-- Every resource ever made was released exactly once. -/
def ReleasedOnce (l : List Ev) : Prop := ∀ r, .made r ∈ l → l.count (.closed r) = 1

/-- Only existing resources are owned, every existing resource has an owner and never two.
`own i` is the resource variable `i` is responsible for. -/
structure Ledger (own : Nat → Option Nat) (l : List Ev) : Prop where
  /-- the log is correct -/
  proper : Proper l
  /-- an owned resource exists -/
  ownedLive : ∀ i r, own i = some r → Live r l
  /-- two variables never own the same resource -/
  unique : ∀ i j r, own i = some r → own j = some r → i = j
  /-- a resource that exists is owned by some variable -/
  noOrphan : ∀ r, Live r l → ∃ i, own i = some r

/-- A correct log never releases a resource twice. -/
theorem Proper.closed_le_one {l : List Ev} (h : Proper l) (r : Nat) : l.count (.closed r) ≤ 1 := by
  induction l with
  | nil => simp
  | cons e l ih =>
    cases e with
    | made q => simp only [Proper] at h; rw [List.count_cons_of_ne (by simp)]; exact ih h.2.2
    | used q => simp only [Proper] at h; rw [List.count_cons_of_ne (by simp)]; exact ih h.2
    | closedForeign => exact absurd h id
    | closedNothing => rw [List.count_cons_of_ne (by simp)]; exact ih h
    | closed q =>
      simp only [Proper] at h
      by_cases hq : q = r
      · subst hq
        rw [List.count_cons_self, List.count_eq_zero_of_not_mem h.1.2]
        exact Nat.le_refl 1
      · rw [List.count_cons_of_ne (by simpa using hq)]; exact ih h.2

/-- In a correct log a resource is never used after its release. -/
theorem Proper.no_use_after {l₁ l₂ : List Ev} {r : Nat} (h : Proper (l₁ ++ .closed r :: l₂)) :
    .used r ∉ l₁ ∧ .closed r ∉ l₁ := by
  induction l₁ with
  | nil => simp
  | cons e l ih =>
    cases e with
    | made q => simp only [Proper, List.cons_append] at h; simpa using ih h.2.2
    | used q =>
      simp only [Proper, List.cons_append] at h
      have := ih h.2
      refine ⟨?_, by simpa using this.2⟩
      simp only [List.mem_cons, not_or]
      refine ⟨?_, this.1⟩
      intro hh
      injection hh with hh
      subst hh
      exact h.1.2 (by simp)
    | closedForeign => exact absurd h id
    | closedNothing => simp only [Proper, List.cons_append] at h; simpa using ih h
    | closed q =>
      simp only [Proper, List.cons_append] at h
      have := ih h.2
      refine ⟨by simpa using this.1, ?_⟩
      simp only [List.mem_cons, not_or]
      refine ⟨?_, this.2⟩
      intro hh
      injection hh with hh
      subst hh
      exact h.1.2 (by simp)

/-- Only what was made is released. -/
theorem closed_made {l : List Ev} (h : Proper l) {r : Nat} (hc : .closed r ∈ l) : .made r ∈ l := by
  induction l with
  | nil => cases hc
  | cons e l ih =>
    cases e with
    | made q =>
      simp only [Proper] at h
      rcases List.mem_cons.mp hc with h' | h'
      · cases h'
      · exact List.mem_cons_of_mem _ (ih h.2.2 h')
    | used q =>
      rcases List.mem_cons.mp hc with h' | h'
      · cases h'
      · exact List.mem_cons_of_mem _ (ih h.2 h')
    | closedForeign => exact absurd h id
    | closedNothing =>
      rcases List.mem_cons.mp hc with h' | h'
      · cases h'
      · exact List.mem_cons_of_mem _ (ih h h')
    | closed q =>
      rcases List.mem_cons.mp hc with h' | h'
      · injection h' with h'; subst h'; exact List.mem_cons_of_mem _ h.1.1
      · exact List.mem_cons_of_mem _ (ih h.2 h')

/-- With all variables gone, every resource was released exactly once. -/
theorem Ledger.releasedOnce {own : Nat → Option Nat} {l : List Ev} (h : Ledger own l)
    (hgone : ∀ i, own i = none) : ReleasedOnce l := by
  intro r hr
  have hle := h.proper.closed_le_one r
  by_cases hc : .closed r ∈ l
  · have := List.count_pos_iff.mpr hc
    omega
  · obtain ⟨i, hi⟩ := h.noOrphan r ⟨hr, hc⟩
    rw [hgone i] at hi
    cases hi

/-! ## Bookkeeping steps -/

/-- Replace one entry of a table. -/
def upd {ι : Type v} [DecidableEq ι] {α : Type u} (f : ι → α) (i : ι) (a : α) : ι → α :=
  fun k => if k = i then a else f k

@[simp] theorem upd_self {ι : Type v} [DecidableEq ι] {α : Type u} (f : ι → α) (i : ι) (a : α) : upd f i a i = a := by simp [upd]
theorem upd_ne {ι : Type v} [DecidableEq ι] {α : Type u} (f : ι → α) {i k : ι} (a : α) (h : k ≠ i) : upd f i a k = f k := by simp [upd, h]

theorem Ledger.init : Ledger (fun _ => none) [] :=
  ⟨trivial, by simp, by simp, by simp [Live]⟩

theorem Ledger.congr {own own' : Nat → Option Nat} {l : List Ev} (h : Ledger own l) (e : ∀ i, own' i = own i) :
    Ledger own' l := by
  have : own' = own := funext e
  rw [this]; exact h

/-- A fresh resource is given to a variable that owns nothing. -/
theorem Ledger.make {own : Nat → Option Nat} {l : List Ev} (h : Ledger own l) {i r : Nat} (hi : own i = none)
    (h1 : .made r ∉ l) (h2 : .closed r ∉ l) : Ledger (upd own i (some r)) (.made r :: l) := by
  refine ⟨⟨h1, h2, h.proper⟩, ?_, ?_, ?_⟩
  · intro k q hk
    by_cases hki : k = i
    · subst hki
      simp only [upd_self, Option.some.injEq] at hk
      subst hk
      exact ⟨by simp, by simpa using h2⟩
    · rw [upd_ne _ _ hki] at hk
      have := h.ownedLive k q hk
      exact ⟨List.mem_cons_of_mem _ this.1, by simpa using this.2⟩
  · intro a b q ha hb
    by_cases hai : a = i
    · by_cases hbi : b = i
      · omega
      · subst hai
        simp only [upd_self, Option.some.injEq] at ha
        subst ha
        rw [upd_ne _ _ hbi] at hb
        exact absurd (h.ownedLive b _ hb).1 h1
    · by_cases hbi : b = i
      · subst hbi
        simp only [upd_self, Option.some.injEq] at hb
        subst hb
        rw [upd_ne _ _ hai] at ha
        exact absurd (h.ownedLive a _ ha).1 h1
      · rw [upd_ne _ _ hai] at ha
        rw [upd_ne _ _ hbi] at hb
        exact h.unique a b q ha hb
  · intro q hq
    by_cases hqr : q = r
    · subst hqr; exact ⟨i, by simp⟩
    · have hm : .made q ∈ l := by
        rcases List.mem_cons.mp hq.1 with h' | h'
        · injection h' with h'; exact absurd h' hqr
        · exact h'
      obtain ⟨k, hk⟩ := h.noOrphan q ⟨hm, fun hc => hq.2 (List.mem_cons_of_mem _ hc)⟩
      refine ⟨k, ?_⟩
      rw [upd_ne _ _ (by intro hki; subst hki; rw [hi] at hk; cases hk)]
      exact hk

/-- The owner releases its resource. -/
theorem Ledger.close {own : Nat → Option Nat} {l : List Ev} (h : Ledger own l) {i r : Nat} (hi : own i = some r) :
    Ledger (upd own i none) (.closed r :: l) := by
  refine ⟨⟨h.ownedLive i r hi, h.proper⟩, ?_, ?_, ?_⟩
  · intro k q hk
    by_cases hki : k = i
    · subst hki; simp at hk
    · rw [upd_ne _ _ hki] at hk
      have := h.ownedLive k q hk
      refine ⟨List.mem_cons_of_mem _ this.1, ?_⟩
      intro hc
      rcases List.mem_cons.mp hc with h' | h'
      · injection h' with h'
        subst h'
        exact hki (h.unique k i q hk hi)
      · exact this.2 h'
  · intro a b q ha hb
    by_cases hai : a = i
    · subst hai; simp at ha
    · by_cases hbi : b = i
      · subst hbi; simp at hb
      · rw [upd_ne _ _ hai] at ha
        rw [upd_ne _ _ hbi] at hb
        exact h.unique a b q ha hb
  · intro q hq
    have hm : .made q ∈ l := by
      rcases List.mem_cons.mp hq.1 with h' | h'
      · cases h'
      · exact h'
    obtain ⟨k, hk⟩ := h.noOrphan q ⟨hm, fun hc => hq.2 (List.mem_cons_of_mem _ hc)⟩
    refine ⟨k, ?_⟩
    rw [upd_ne _ _ ?_]
    · exact hk
    · intro hki
      subst hki
      rw [hi] at hk
      injection hk with hk
      subst hk
      exact hq.2 (by simp)

/-- A resource changes hands; the receiver owned nothing. -/
theorem Ledger.move {own : Nat → Option Nat} {l : List Ev} (h : Ledger own l) {i j : Nat} (hi : own i = none)
    (hij : i ≠ j) : Ledger (upd (upd own i (own j)) j none) l := by
  have key : ∀ k q, upd (upd own i (own j)) j none k = some q → (k = i ∧ own j = some q) ∨ (k ≠ i ∧ k ≠ j ∧ own k = some q) := by
    intro k q hk
    by_cases hkj : k = j
    · subst hkj; simp at hk
    · rw [upd_ne _ _ hkj] at hk
      by_cases hki : k = i
      · subst hki; simp at hk; exact .inl ⟨rfl, hk⟩
      · rw [upd_ne _ _ hki] at hk
        exact .inr ⟨hki, hkj, hk⟩
  refine ⟨h.proper, ?_, ?_, ?_⟩
  · intro k q hk
    rcases key k q hk with ⟨_, h'⟩ | ⟨_, _, h'⟩
    · exact h.ownedLive j q h'
    · exact h.ownedLive k q h'
  · intro a b q ha hb
    rcases key a q ha with ⟨ea, h1⟩ | ⟨_, naj, h1⟩ <;> rcases key b q hb with ⟨eb, h2⟩ | ⟨_, nbj, h2⟩
    · rw [ea, eb]
    · exact absurd (h.unique b j q h2 h1) nbj
    · exact absurd (h.unique a j q h1 h2) naj
    · exact h.unique a b q h1 h2
  · intro q hq
    obtain ⟨k, hk⟩ := h.noOrphan q hq
    by_cases hkj : k = j
    · subst hkj
      exact ⟨i, by rw [upd_ne _ _ hij]; simpa using hk⟩
    · refine ⟨k, ?_⟩
      rw [upd_ne _ _ hkj, upd_ne _ _ ?_]
      · exact hk
      · intro hki; subst hki; rw [hi] at hk; cases hk

/-- A resource is used through its owner. -/
theorem Ledger.use {own : Nat → Option Nat} {l : List Ev} (h : Ledger own l) {i r : Nat} (hi : own i = some r) :
    Ledger own (.used r :: l) := by
  refine ⟨⟨h.ownedLive i r hi, h.proper⟩, ?_, h.unique, ?_⟩
  · intro k q hk
    have := h.ownedLive k q hk
    exact ⟨List.mem_cons_of_mem _ this.1, by simpa using this.2⟩
  · intro q hq
    exact h.noOrphan q ⟨by simpa using hq.1, by simpa using hq.2⟩

/-- A request to release nothing does not matter. -/
theorem Ledger.nothing {own : Nat → Option Nat} {l : List Ev} (h : Ledger own l) :
    Ledger own (.closedNothing :: l) := by
  refine ⟨h.proper, ?_, h.unique, ?_⟩
  · intro k q hk
    have := h.ownedLive k q hk
    exact ⟨List.mem_cons_of_mem _ this.1, by simpa using this.2⟩
  · intro q hq
    exact h.noOrphan q ⟨by simpa using hq.1, by simpa using hq.2⟩

/-! ## Executions -/

/-- States reachable from `s₀` by operations the caller is allowed to perform (`pre`). -/
inductive Reach {σ ω : Type} (step : σ → ω → Res σ) (pre : σ → ω → Prop) (s₀ : σ) : σ → Prop
  | start : Reach step pre s₀ s₀
  | step {s s' : σ} {o : ω} : Reach step pre s₀ s → pre s o → step s o = .ok s' → Reach step pre s₀ s'

theorem Reach.inv {σ ω : Type} {step : σ → ω → Res σ} {pre : σ → ω → Prop} {s₀ : σ} {P : σ → Prop}
    (h0 : P s₀) (hs : ∀ s o s', P s → pre s o → step s o = .ok s' → P s') {s : σ}
    (h : Reach step pre s₀ s) : P s := by
  induction h with
  | start => exact h0
  | step _ hp he ih => exact hs _ _ _ ih hp he

/-- Run operations, checking the caller's obligations (used for concrete executions). -/
def runPre {σ ω : Type} (step : σ → ω → Res σ) (pre : σ → ω → Prop) [∀ s o, Decidable (pre s o)] :
    σ → List ω → Option σ
  | s, [] => some s
  | s, o :: os => if pre s o then
      match step s o with
      | .ok s' => runPre step pre s' os
      | _ => none
    else none

theorem Reach.of_runPre {σ ω : Type} {step : σ → ω → Res σ} {pre : σ → ω → Prop} [∀ s o, Decidable (pre s o)]
    {s₀ : σ} : ∀ {os : List ω} {s s' : σ}, Reach step pre s₀ s → runPre step pre s os = some s' →
      Reach step pre s₀ s' := by
  intro os
  induction os with
  | nil => intro s s' h hr; simp [runPre] at hr; subst hr; exact h
  | cons o os ih =>
    intro s s' h hr
    simp only [runPre] at hr
    split at hr
    · rename_i hp
      cases hs : step s o with
      | ok t => rw [hs] at hr; exact ih (.step h hp hs) hr
      | ub => rw [hs] at hr; cases hr
      | loop => rw [hs] at hr; cases hr
    · cases hr

/-- A concrete execution reaches a state with the given observation. -/
theorem Reach.witness {σ ω β : Type} {step : σ → ω → Res σ} {pre : σ → ω → Prop} [∀ s o, Decidable (pre s o)]
    {s₀ : σ} (os : List ω) (f : σ → β) (b : β) (h : (runPre step pre s₀ os).map f = some b) :
    ∃ s, Reach step pre s₀ s ∧ f s = b := by
  obtain ⟨s, hs, e⟩ := Option.map_eq_some_iff.mp h
  exact ⟨s, Reach.of_runPre .start hs, e⟩

/-- Where a concrete sequence leads. -/
def visit {σ ω : Type} (step : σ → ω → Res σ) (pre : σ → ω → Prop) [∀ s o, Decidable (pre s o)] (s₀ : σ) (os : List ω) : σ :=
  (runPre step pre s₀ os).getD s₀

theorem Reach.visit {σ ω : Type} {step : σ → ω → Res σ} {pre : σ → ω → Prop} [∀ s o, Decidable (pre s o)] {s₀ : σ} (os : List ω)
    (h : (runPre step pre s₀ os).isSome = true) : Reach step pre s₀ (Own.visit step pre s₀ os) := by
  obtain ⟨s, hs⟩ := Option.isSome_iff_exists.mp h
  have : Own.visit step pre s₀ os = s := by simp [Own.visit, hs]
  rw [this]
  exact Reach.of_runPre .start hs

end Flame.Own
