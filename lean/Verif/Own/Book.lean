import Verif.Own.Spec

/-!
# Bookkeeping of resources that may get lost

`Ledger` (Own/Spec.lean) says that nothing is lost.  `Book` is the same with a list of the resources nobody is responsible for any more; it
is used to say exactly which calls lose something.  Nothing here refers to the code.
-/

namespace Flame.Own

/-- The resource, if there is one and it exists. -/
def live (l : List Ev) : Option Nat → List Nat
  | some r => if Live r l then [r] else []
  | none => []

/-- Every existing resource is held by exactly one variable or is lost, not both.  `own i` is what variable `i` names (it may have been released already). -/
structure Book (own : Nat → Option Nat) (lost : List Nat) (l : List Ev) : Prop where
  proper : Proper l
  made : ∀ i r, own i = some r → .made r ∈ l
  unique : ∀ i j r, own i = some r → own j = some r → i = j
  kept : ∀ r, Live r l → (∃ i, own i = some r) ∨ r ∈ lost
  lost : ∀ r ∈ lost, Live r l ∧ ∀ i, own i ≠ some r

theorem Book.init : Book (fun _ => none) [] [] := ⟨trivial, by simp, by simp, by simp [Live], by simp⟩

theorem Book.congr {own own' : Nat → Option Nat} {lost : List Nat} {l : List Ev} (h : Book own lost l) (e : ∀ i, own' i = own i) : Book own' lost l := by
  have : own' = own := funext e
  rw [this]; exact h

/-- A variable forgets what it names. -/
theorem Book.forget {own : Nat → Option Nat} {lost : List Nat} {l : List Ev} (h : Book own lost l) (i : Nat) :
    Book (upd own i none) (live l (own i) ++ lost) l := by
  have sub : ∀ k q, upd own i none k = some q → k ≠ i ∧ own k = some q := by
    intro k q hk
    by_cases hki : k = i
    · subst hki; simp at hk
    · rw [upd_ne _ _ hki] at hk; exact ⟨hki, hk⟩
  refine ⟨h.proper, fun k q hk => h.made k q (sub k q hk).2, fun a b q ha hb => h.unique a b q (sub a q ha).2 (sub b q hb).2, ?_, ?_⟩
  · intro r hr
    rcases h.kept r hr with ⟨k, hk⟩ | hk
    · by_cases hki : k = i
      · subst hki; right; simp [hk, live, hr]
      · left; exact ⟨k, by rw [upd_ne _ _ hki]; exact hk⟩
    · right; exact List.mem_append_right _ hk
  · intro r hr
    rcases List.mem_append.mp hr with hr | hr
    · cases ho : own i with
      | none => simp [ho, live] at hr
      | some q =>
        simp only [ho, live] at hr
        split at hr
        · rename_i hl
          simp only [List.mem_singleton] at hr
          subst hr
          exact ⟨hl, fun k hk => (sub k r hk).1 (h.unique k i r (sub k r hk).2 ho)⟩
        · cases hr
    · exact ⟨(h.lost r hr).1, fun k hk => (h.lost r hr).2 k (sub k r hk).2⟩

/-- A new resource is given to a variable that names nothing. -/
theorem Book.make {own : Nat → Option Nat} {lost : List Nat} {l : List Ev} (h : Book own lost l) {i r : Nat} (hi : own i = none)
    (h1 : .made r ∉ l) : Book (upd own i (some r)) lost (.made r :: l) := by
  have h2 : .closed r ∉ l := fun hc => h1 (closed_made h.proper hc)
  have sub : ∀ k q, upd own i (some r) k = some q → (k = i ∧ q = r) ∨ (k ≠ i ∧ own k = some q) := by
    intro k q hk
    by_cases hki : k = i
    · subst hki; simp at hk; exact .inl ⟨rfl, hk.symm⟩
    · rw [upd_ne _ _ hki] at hk; exact .inr ⟨hki, hk⟩
  have up : ∀ q, Live q l → Live q (.made r :: l) := fun q hq => ⟨List.mem_cons_of_mem _ hq.1, by simpa using hq.2⟩
  refine ⟨⟨h1, h2, h.proper⟩, ?_, ?_, ?_, ?_⟩
  · intro k q hk
    rcases sub k q hk with ⟨-, e⟩ | ⟨-, e⟩
    · subst e; simp
    · exact List.mem_cons_of_mem _ (h.made k q e)
  · intro a b q ha hb
    rcases sub a q ha with ⟨e, e'⟩ | ⟨-, e⟩ <;> rcases sub b q hb with ⟨f, f'⟩ | ⟨-, f⟩
    · rw [e, f]
    · subst e'; exact absurd (h.made b q f) h1
    · subst f'; exact absurd (h.made a q e) h1
    · exact h.unique a b q e f
  · intro q hq
    by_cases hqr : q = r
    · subst hqr; exact .inl ⟨i, by simp⟩
    · have hl : Live q l := ⟨by simpa [hqr] using hq.1, by simpa using hq.2⟩
      rcases h.kept q hl with ⟨k, hk⟩ | hk
      · exact .inl ⟨k, by rw [upd_ne _ _ (by intro e; subst e; rw [hi] at hk; cases hk)]; exact hk⟩
      · exact .inr hk
  · intro q hq
    obtain ⟨hl, hn⟩ := h.lost q hq
    refine ⟨up q hl, fun k hk => ?_⟩
    rcases sub k q hk with ⟨-, e⟩ | ⟨-, e⟩
    · subst e; exact h1 hl.1
    · exact hn k e

/-- What a variable names is released; it goes on naming it. -/
theorem Book.release {own : Nat → Option Nat} {lost : List Nat} {l : List Ev} (h : Book own lost l) {i r : Nat} (hi : own i = some r)
    (hl : Live r l) : Book own lost (.closed r :: l) := by
  refine ⟨⟨hl, h.proper⟩, fun k q hk => List.mem_cons_of_mem _ (h.made k q hk), h.unique, ?_, ?_⟩
  · intro q hq
    exact h.kept q ⟨by simpa using hq.1, fun hc => hq.2 (List.mem_cons_of_mem _ hc)⟩
  · intro q hq
    obtain ⟨hlq, hn⟩ := h.lost q hq
    refine ⟨⟨List.mem_cons_of_mem _ hlq.1, fun hc => ?_⟩, hn⟩
    rcases List.mem_cons.mp hc with e | e
    · injection e with e; subst e; exact hn i hi
    · exact hlq.2 e

theorem Book.use {own : Nat → Option Nat} {lost : List Nat} {l : List Ev} (h : Book own lost l) {r : Nat} (hl : Live r l) :
    Book own lost (.used r :: l) := by
  refine ⟨⟨hl, h.proper⟩, fun k q hk => List.mem_cons_of_mem _ (h.made k q hk), h.unique, ?_, ?_⟩
  · intro q hq; exact h.kept q ⟨by simpa using hq.1, by simpa using hq.2⟩
  · intro q hq
    obtain ⟨hlq, hn⟩ := h.lost q hq
    exact ⟨⟨List.mem_cons_of_mem _ hlq.1, by simpa using hlq.2⟩, hn⟩

theorem Book.nothing {own : Nat → Option Nat} {lost : List Nat} {l : List Ev} (h : Book own lost l) : Book own lost (.closedNothing :: l) := by
  refine ⟨h.proper, fun k q hk => List.mem_cons_of_mem _ (h.made k q hk), h.unique, ?_, ?_⟩
  · intro q hq; exact h.kept q ⟨by simpa using hq.1, by simpa using hq.2⟩
  · intro q hq
    obtain ⟨hlq, hn⟩ := h.lost q hq
    exact ⟨⟨List.mem_cons_of_mem _ hlq.1, by simpa using hlq.2⟩, hn⟩

/-- What one variable names is handed to another that names nothing. -/
theorem Book.hand {own : Nat → Option Nat} {lost : List Nat} {l : List Ev} (h : Book own lost l) {i j : Nat} (hi : own i = none) :
    Book (upd (upd own i (own j)) j none) lost l := by
  by_cases hij : i = j
  · subst hij
    refine h.congr fun k => ?_
    by_cases hk : k = i
    · subst hk; rw [upd_self, hi]
    · rw [upd_ne _ _ hk, upd_ne _ _ hk]
  have key : ∀ k q, upd (upd own i (own j)) j none k = some q → (k = i ∧ own j = some q) ∨ (k ≠ i ∧ k ≠ j ∧ own k = some q) := by
    intro k q hk
    by_cases hkj : k = j
    · subst hkj; simp at hk
    · rw [upd_ne _ _ hkj] at hk
      by_cases hki : k = i
      · subst hki; simp at hk; exact .inl ⟨rfl, hk⟩
      · rw [upd_ne _ _ hki] at hk; exact .inr ⟨hki, hkj, hk⟩
  refine ⟨h.proper, ?_, ?_, ?_, ?_⟩
  · intro k q hk
    rcases key k q hk with ⟨_, e⟩ | ⟨_, _, e⟩
    · exact h.made j q e
    · exact h.made k q e
  · intro a b q ha hb
    rcases key a q ha with ⟨ea, h1⟩ | ⟨_, naj, h1⟩ <;> rcases key b q hb with ⟨eb, h2⟩ | ⟨_, nbj, h2⟩
    · rw [ea, eb]
    · exact absurd (h.unique b j q h2 h1) nbj
    · exact absurd (h.unique a j q h1 h2) naj
    · exact h.unique a b q h1 h2
  · intro q hq
    rcases h.kept q hq with ⟨k, hk⟩ | hk
    · left
      by_cases hkj : k = j
      · subst hkj; exact ⟨i, by rw [upd_ne _ _ hij]; simpa using hk⟩
      · refine ⟨k, ?_⟩
        rw [upd_ne _ _ hkj, upd_ne _ _ (by intro e; subst e; rw [hi] at hk; cases hk)]
        exact hk
    · exact .inr hk
  · intro q hq
    obtain ⟨hl, hn⟩ := h.lost q hq
    refine ⟨hl, fun k hk => ?_⟩
    rcases key k q hk with ⟨_, e⟩ | ⟨_, _, e⟩
    · exact hn j e
    · exact hn k e

/-- A move assignment: what the target names is forgotten first. -/
theorem Book.assign {own : Nat → Option Nat} {lost : List Nat} {l : List Ev} (h : Book own lost l) (i j : Nat) :
    Book (upd (upd own i (own j)) j none) (live l (own i) ++ lost) l := by
  refine ((h.forget i).hand (i := i) (j := j) (by simp)).congr fun k => ?_
  by_cases hkj : k = j
  · subst hkj; simp
  · rw [upd_ne _ _ hkj, upd_ne _ _ hkj]
    by_cases hki : k = i
    · subst hki; rw [upd_self, upd_self, upd_ne _ _ (Ne.symm hkj)]
    · rw [upd_ne _ _ hki, upd_ne _ _ hki, upd_ne _ _ hki]

/-- When nothing is named any more, what still exists is exactly what was lost, and everything was released exactly once if and only if nothing was lost. -/
theorem Book.finish {own : Nat → Option Nat} {lost : List Nat} {l : List Ev} (h : Book own lost l) (hg : ∀ i, own i = none) :
    (∀ r, Live r l ↔ r ∈ lost) ∧ (ReleasedOnce l ↔ lost = []) := by
  have hl : ∀ r, Live r l ↔ r ∈ lost := by
    intro r
    refine ⟨fun hr => ?_, fun hr => (h.lost r hr).1⟩
    rcases h.kept r hr with ⟨i, hi⟩ | hr
    · rw [hg i] at hi; cases hi
    · exact hr
  refine ⟨hl, fun hr => ?_, fun e r hr => ?_⟩
  · refine List.eq_nil_iff_forall_not_mem.mpr fun r hm => ?_
    obtain ⟨h1, h2⟩ := (hl r).mpr hm
    have := hr r h1
    exact h2 (List.count_pos_iff.mp (by omega))
  · have hle := h.proper.closed_le_one r
    by_cases hc : .closed r ∈ l
    · have := List.count_pos_iff.mpr hc
      omega
    · have := (hl r).mp ⟨hr, hc⟩
      rw [e] at this; cases this

/-! ## Books in which every named resource exists -/

structure OBook (own : Nat → Option Nat) (lost : List Nat) (l : List Ev) : Prop extends Book own lost l where
  isOpen : ∀ i r, own i = some r → Live r l

theorem OBook.init : OBook (fun _ => none) [] [] := ⟨Book.init, by simp⟩

theorem OBook.congr {own own' : Nat → Option Nat} {lost : List Nat} {l : List Ev} (h : OBook own lost l) (e : ∀ i, own' i = own i) :
    OBook own' lost l := by
  have : own' = own := funext e
  rw [this]; exact h

theorem upd_none_some {own : Nat → Option Nat} {i k r : Nat} (h : upd own i none k = some r) : k ≠ i ∧ own k = some r := by
  by_cases hki : k = i
  · subst hki; simp at h
  · rw [upd_ne _ _ hki] at h; exact ⟨hki, h⟩

/-- A variable forgets what it names: that is lost. -/
theorem OBook.forget {own : Nat → Option Nat} {lost : List Nat} {l : List Ev} (h : OBook own lost l) (i : Nat) :
    OBook (upd own i none) ((own i).toList ++ lost) l := by
  have hl : live l (own i) = (own i).toList := by
    cases ho : own i with
    | none => rfl
    | some r => simp [live, h.isOpen i r ho]
  refine ⟨?_, fun k r hk => h.isOpen k r (upd_none_some hk).2⟩
  rw [← hl]; exact h.toBook.forget i

theorem OBook.make {own : Nat → Option Nat} {lost : List Nat} {l : List Ev} (h : OBook own lost l) {i r : Nat} (hi : own i = none)
    (h1 : .made r ∉ l) : OBook (upd own i (some r)) lost (.made r :: l) := by
  refine ⟨h.toBook.make hi h1, fun k q hk => ?_⟩
  by_cases hki : k = i
  · subst hki
    simp at hk
    subst hk
    exact ⟨List.mem_cons_self, fun hc => h1 (closed_made h.proper (by simpa using hc))⟩
  · rw [upd_ne _ _ hki] at hk
    obtain ⟨a, b⟩ := h.isOpen k q hk
    exact ⟨List.mem_cons_of_mem _ a, by simpa using b⟩

/-- A variable releases what it names and names it no more. -/
theorem OBook.close {own : Nat → Option Nat} {lost : List Nat} {l : List Ev} (h : OBook own lost l) {i r : Nat} (hi : own i = some r) :
    OBook (upd own i none) lost (.closed r :: l) := by
  have hx := (h.toBook.release hi (h.isOpen i r hi)).forget i
  have hd : live (.closed r :: l) (own i) = [] := by simp [live, hi, Live]
  rw [hd] at hx
  refine ⟨hx, fun k q hk => ?_⟩
  obtain ⟨hki, hk⟩ := upd_none_some hk
  obtain ⟨a, b⟩ := h.isOpen k q hk
  refine ⟨List.mem_cons_of_mem _ a, fun hc => ?_⟩
  rcases List.mem_cons.mp hc with e | e
  · injection e with e
    subst e
    exact hki (h.unique k i q hk hi)
  · exact b e

theorem OBook.use {own : Nat → Option Nat} {lost : List Nat} {l : List Ev} (h : OBook own lost l) {i r : Nat} (hi : own i = some r) :
    OBook own lost (.used r :: l) :=
  ⟨h.toBook.use (h.isOpen i r hi), fun k q hk => let ⟨a, b⟩ := h.isOpen k q hk; ⟨List.mem_cons_of_mem _ a, by simpa using b⟩⟩

theorem OBook.nothing {own : Nat → Option Nat} {lost : List Nat} {l : List Ev} (h : OBook own lost l) : OBook own lost (.closedNothing :: l) :=
  ⟨h.toBook.nothing, fun k q hk => let ⟨a, b⟩ := h.isOpen k q hk; ⟨List.mem_cons_of_mem _ a, by simpa using b⟩⟩

theorem OBook.hand {own : Nat → Option Nat} {lost : List Nat} {l : List Ev} (h : OBook own lost l) {i j : Nat} (hi : own i = none) :
    OBook (upd (upd own i (own j)) j none) lost l := by
  refine ⟨h.toBook.hand hi, fun k q hk => ?_⟩
  obtain ⟨-, hk⟩ := upd_none_some hk
  by_cases hki : k = i
  · subst hki; rw [upd_self] at hk; exact h.isOpen j q hk
  · rw [upd_ne _ _ hki] at hk; exact h.isOpen k q hk

/-- After variable `i` was emptied in books `own'`, it receives what `j` named before (nothing, if it is the same variable). -/
theorem OBook.receive {own : Nat → Option Nat} {lost : List Nat} {l : List Ev} {i : Nat} (h : OBook (upd own i none) lost l) (j : Nat) :
    OBook (upd (upd own i (own j)) j none) lost l := by
  refine (h.hand (i := i) (j := j) (by simp)).congr fun k => ?_
  by_cases hkj : k = j
  · subst hkj; simp
  · rw [upd_ne _ _ hkj, upd_ne _ _ hkj]
    by_cases hki : k = i
    · subst hki; rw [upd_self, upd_self, upd_ne _ _ (Ne.symm hkj)]
    · rw [upd_ne _ _ hki, upd_ne _ _ hki, upd_ne _ _ hki]

/-- What exists is what is named or lost; at the end, what was lost. -/
theorem OBook.exact {own : Nat → Option Nat} {lost : List Nat} {l : List Ev} (h : OBook own lost l) :
    Proper l ∧ (∀ r, Live r l ↔ (∃ i, own i = some r) ∨ r ∈ lost) ∧
    ((∀ i, own i = none) → (∀ r, Live r l ↔ r ∈ lost) ∧ (ReleasedOnce l ↔ lost = [])) := by
  refine ⟨h.proper, fun r => ⟨h.kept r, ?_⟩, h.toBook.finish⟩
  rintro (⟨i, hr⟩ | hr)
  · exact h.isOpen i r hr
  · exact (h.lost r hr).1

/-! ## Histories -/

/-- A history of calls that all go through, from `s₀`, with what it loses (the last loss first); `losing s o` is what call `o` loses in state `s`. -/
inductive LossHist {σ ω : Type} (step : σ → ω → Res σ) (losing : σ → ω → List Nat) (s₀ : σ) : σ → List Nat → Prop
  | start : LossHist step losing s₀ s₀ []
  | step {s s' : σ} {lost : List Nat} {o : ω} : LossHist step losing s₀ s lost → step s o = .ok s' → LossHist step losing s₀ s' (losing s o ++ lost)

/-- The history of the given calls, if all of them go through (used for concrete executions). -/
def lossRun {σ ω : Type} (step : σ → ω → Res σ) (losing : σ → ω → List Nat) : σ → List Nat → List ω → Option (σ × List Nat)
  | s, lost, [] => some (s, lost)
  | s, lost, o :: os => match step s o with
    | .ok s' => lossRun step losing s' (losing s o ++ lost) os
    | _ => none

theorem LossHist.of_run {σ ω : Type} {step : σ → ω → Res σ} {losing : σ → ω → List Nat} {s₀ : σ} :
    ∀ {os : List ω} {s : σ} {lost : List Nat} {x : σ × List Nat}, LossHist step losing s₀ s lost → lossRun step losing s lost os = some x →
      LossHist step losing s₀ x.1 x.2
  | [], _, _, _, h, e => by simp [lossRun] at e; subst e; exact h
  | o :: os, s, lost, x, h, e => by
    simp only [lossRun] at e
    cases hs : step s o with
    | ok t => rw [hs] at e; exact LossHist.of_run (.step h hs) e
    | ub => rw [hs] at e; cases e
    | loop => rw [hs] at e; cases e

/-- A concrete history with the given losses and observation. -/
theorem LossHist.witness {σ ω β : Type} {step : σ → ω → Res σ} {losing : σ → ω → List Nat} {s₀ : σ} {lost : List Nat} (os : List ω) (f : σ → β) (b : β)
    (h : (lossRun step losing s₀ [] os).map (fun x => (x.2, f x.1)) = some (lost, b)) : ∃ s, LossHist step losing s₀ s lost ∧ f s = b := by
  obtain ⟨x, hx, e⟩ := Option.map_eq_some_iff.mp h
  injection e with e1 e2
  have := LossHist.of_run .start hx
  rw [e1] at this
  exact ⟨x.1, this, e2⟩

end Flame.Own
