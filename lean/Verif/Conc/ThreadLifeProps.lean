import Verif.Conc.ThreadLife

/-!
# C151: a started thread works on an intact object

The specification: no schedule leads to undefined behaviour, and when the owner has finished, the thread was joined exactly once.
-/

namespace Flame.ThreadLife

/-- The three steps of destruction. -/
def tailActs : List Act := [.dtorImplementer, .dtorCrtp, .dtorBase]

/-- Every schedule is free of undefined behaviour. -/
def Safe (esrch : Bool) (n : Nat) (acts : List Act) : Prop := ∀ sched, runOps (step esrch n) (start acts) sched ≠ .ub

/-- Invariant of uses that wait for the end of the body and do not join: either the waiting is still to come, or the body has ended. -/
inductive Inv : St → Prop
  | idle {acts : List Act} (hu : Use acts) (hj : .join ∉ acts) (hw : .await ∈ acts) : Inv (start acts)
  | before {acts : List Act} {t : Thr} (hu : Use acts) (hj : .join ∉ acts) (hw : .await ∈ acts) (ht : t ≠ .idle) :
      Inv ⟨acts ++ tailActs, .whole, t, false⟩
  | after {acts : List Act} (hu : Use acts) (hj : .join ∉ acts) : Inv ⟨acts ++ tailActs, .whole, .done, false⟩
  | d1 : Inv ⟨[.dtorCrtp, .dtorBase], .noImplementer, .done, false⟩
  | d2 : Inv ⟨[.dtorBase], .baseOnly, .done, false⟩
  | finished : Inv ⟨[], .gone, .done, true⟩

theorem use_tail {a : Act} {acts : List Act} (h : Use (a :: acts)) : Use acts := fun x hx => h x (List.mem_cons_of_mem _ hx)

theorem inv_step {esrch : Bool} {n : Nat} {s : St} (h : Inv s) (who : Bool) : ∃ s', step esrch n s who = .ok s' ∧ Inv s' := by
  cases who with
  | true =>
    cases h with
    | idle hu hj hw => exact ⟨_, rfl, .idle hu hj hw⟩
    | @before acts t hu hj hw ht =>
      cases t with
      | idle => exact absurd rfl ht
      | started => exact ⟨_, rfl, .before hu hj hw (by simp)⟩
      | inBody k =>
        cases k with
        | zero => exact ⟨_, rfl, .before hu hj hw (by simp)⟩
        | succ k => exact ⟨_, rfl, .before hu hj hw (by simp)⟩
      | done => exact ⟨_, rfl, .before hu hj hw (by simp)⟩
    | after hu hj => exact ⟨_, rfl, .after hu hj⟩
    | d1 => exact ⟨_, rfl, .d1⟩
    | d2 => exact ⟨_, rfl, .d2⟩
    | finished => exact ⟨_, rfl, .finished⟩
  | false =>
    cases h with
    | idle hu hj hw => exact ⟨_, rfl, .before hu hj hw (by simp)⟩
    | @before acts t hu hj hw ht =>
      cases acts with
      | nil => simp at hw
      | cons a acts =>
        have hj' : Act.join ∉ acts := fun hh => hj (List.mem_cons_of_mem _ hh)
        rcases hu a (by simp) with e | e | e | e
        · subst e
          exact ⟨_, rfl, .before (use_tail hu) hj' (by simpa using hw) ht⟩
        · subst e
          by_cases hd : t = .done
          · subst hd; exact ⟨_, rfl, .after (use_tail hu) hj'⟩
          · exact ⟨⟨Act.await :: acts ++ tailActs, .whole, t, false⟩, by simp [step, mainStep, hd], .before hu hj hw ht⟩
        · subst e
          by_cases hd : t = .done ∧ esrch = true
          · exact ⟨⟨acts ++ tailActs, .whole, t, false⟩, by simp [step, mainStep, hd], .before (use_tail hu) hj' (by simpa using hw) ht⟩
          · exact ⟨⟨Act.poll :: acts ++ tailActs, .whole, t, false⟩, by simp [step, mainStep, hd], .before hu hj hw ht⟩
        · subst e; exact absurd (by simp) hj
    | @after acts hu hj =>
      cases acts with
      | nil => exact ⟨_, rfl, .d1⟩
      | cons a acts =>
        have hj' : Act.join ∉ acts := fun hh => hj (List.mem_cons_of_mem _ hh)
        rcases hu a (by simp) with e | e | e | e
        · subst e; exact ⟨_, rfl, .after (use_tail hu) hj'⟩
        · subst e; exact ⟨_, rfl, .after (use_tail hu) hj'⟩
        · subst e
          cases esrch with
          | true => exact ⟨_, rfl, .after (use_tail hu) hj'⟩
          | false => exact ⟨_, rfl, .after hu hj⟩
        · subst e; exact absurd (by simp) hj
    | d1 => exact ⟨_, rfl, .d2⟩
    | d2 => exact ⟨_, rfl, .finished⟩
    | finished => exact ⟨_, rfl, .finished⟩

theorem inv_run {esrch : Bool} {n : Nat} : ∀ (sched : List Bool) {s : St}, Inv s →
    ∃ s', runOps (step esrch n) s sched = .ok s' ∧ Inv s'
  | [], s, h => ⟨s, rfl, h⟩
  | w :: ws, s, h => by
    obtain ⟨u, hu, hi⟩ := inv_step (esrch := esrch) (n := n) h w
    obtain ⟨s', hs, hi'⟩ := inv_run ws hi
    exact ⟨s', by simp only [runOps, hu]; exact hs, hi'⟩

/-- The owner alone can do any number of things that do not wait. -/
theorem work_run {esrch : Bool} {n : Nat} (t : Thr) (j : Bool) : ∀ (acts more : List Act), (∀ a ∈ acts, a = .work) →
    runOps (step esrch n) ⟨acts ++ more, .whole, t, j⟩ (List.replicate acts.length false) = .ok ⟨more, .whole, t, j⟩
  | [], _, _ => rfl
  | a :: acts, more, h => by
    have ha := h a (by simp)
    subst ha
    simp only [List.length_cons, List.replicate_succ, List.cons_append, runOps, step, mainStep, Bool.false_eq_true, if_false]
    exact work_run t j acts more (fun x hx => h x (List.mem_cons_of_mem _ hx))

/-- Once the body has ended the owner goes through everything up to the first `join` and past it. -/
theorem done_run {esrch : Bool} {n : Nat} : ∀ (acts more : List Act) (j : Bool), Use acts → .poll ∉ acts →
    runOps (step esrch n) ⟨acts ++ more, .whole, .done, j⟩ (List.replicate acts.length false) =
      if j = true ∧ .join ∈ acts ∨ 2 ≤ acts.count .join then .ub else .ok ⟨more, .whole, .done, j || decide (.join ∈ acts)⟩
  | [], more, j, _, _ => by simp [runOps]
  | a :: acts, more, j, hu, hp => by
    have hp' : Act.poll ∉ acts := fun hh => hp (List.mem_cons_of_mem _ hh)
    have ih := done_run (esrch := esrch) (n := n) acts more
    rcases hu a (by simp) with e | e | e | e
    · subst e
      have := ih j (use_tail hu) hp'
      simp only [List.length_cons, List.replicate_succ, List.cons_append, runOps, step, mainStep, Bool.false_eq_true, if_false, this]
      simp
    · subst e
      have := ih j (use_tail hu) hp'
      simp only [List.length_cons, List.replicate_succ, List.cons_append, runOps, step, mainStep, Bool.false_eq_true, if_false, if_true, this]
      simp
    · subst e; exact absurd (by simp) hp
    · subst e
      cases j with
      | true => simp [List.replicate_succ, runOps, step, mainStep, pjoin]
      | false =>
        have := ih true (use_tail hu) hp'
        simp only [List.length_cons, List.replicate_succ, List.cons_append, runOps, step, mainStep, pjoin, Bool.false_eq_true, if_false, this]
        by_cases hm : Act.join ∈ acts
        · have : 1 ≤ acts.count Act.join := List.count_pos_iff.mpr hm
          have h2 : 2 ≤ (Act.join :: acts).count Act.join := by rw [List.count_cons_self]; omega
          rw [if_pos (.inl ⟨trivial, hm⟩), if_pos (.inr h2)]
        · have h0 : acts.count Act.join = 0 := List.count_eq_zero.mpr hm
          have h2 : ¬ 2 ≤ (Act.join :: acts).count Act.join := by rw [List.count_cons_self]; omega
          rw [if_neg (by simp [hm, h0]), if_neg (by simp; omega)]
          simp

theorem runOps_ub_append {σ ω : Type} {step : σ → ω → Res σ} {s : σ} {os : List ω} (h : runOps step s os = .ub) (os' : List ω) :
    runOps step s (os ++ os') = .ub := by
  induction os generalizing s with
  | nil => simp [runOps] at h
  | cons o os ih =>
    simp only [List.cons_append, runOps] at h ⊢
    cases hs : step s o with
    | ub => rfl
    | loop => rw [hs] at h; cases h
    | ok u => rw [hs] at h; exact ih h

theorem body_run {esrch : Bool} {n : Nat} (m : List Act) (j : Bool) : ∀ k,
    runOps (step esrch n) ⟨m, .whole, .inBody k, j⟩ (List.replicate (k + 1) true) = .ok ⟨m, .whole, .done, j⟩
  | 0 => rfl
  | k + 1 => by
    simp only [List.replicate_succ (n := k + 1), runOps, step, thrStep, if_true]
    exact body_run m j k

theorem split_await : ∀ (acts : List Act), Use acts → .join ∉ acts → .await ∉ acts → .poll ∉ acts → ∀ a ∈ acts, a = .work := by
  intro acts hu hj ha hp a h
  rcases hu a h with e | e | e | e
  · exact e
  · subst e; exact absurd h ha
  · subst e; exact absurd h hp
  · subst e; exact absurd h hj

end Flame.ThreadLife

namespace Flame
open ThreadLife

/-- **C151, exactly when it holds.** An owner who runs the thread, does anything and destroys the object is safe under every schedule exactly if
it waits, by means of its own, for the end of the body and never calls `join()`. -/
theorem C151_safe_iff (esrch : Bool) (n : Nat) {acts : List Act} (hu : Use acts) (hp : .poll ∉ acts) :
    Safe esrch n acts ↔ .join ∉ acts ∧ .await ∈ acts := by
  constructor
  · intro hs
    by_cases hj : Act.join ∈ acts
    · -- let the body end, then go on: the second `pthread_join` comes from `join` again or from `~ThreadBase`
      exfalso
      have h1 : runOps (step esrch n) (start acts) (false :: true :: List.replicate (n + 1) true) =
          .ok ⟨acts ++ tailActs, .whole, .done, false⟩ := by
        simp only [runOps, step, mainStep, thrStep, start, Bool.false_eq_true, if_false, if_true]
        exact body_run _ _ _
      have h2 := done_run (esrch := esrch) (n := n) acts tailActs false hu hp
      by_cases hc : 2 ≤ acts.count Act.join
      · rw [if_pos (.inr hc)] at h2
        apply hs ((false :: true :: List.replicate (n + 1) true) ++ List.replicate acts.length false)
        rw [runOps_append h1, h2]
      · rw [if_neg (by simp [hc])] at h2
        apply hs ((false :: true :: List.replicate (n + 1) true) ++ (List.replicate acts.length false ++ [false, false, false]))
        rw [runOps_append h1, runOps_append h2]
        simp [hj, tailActs, runOps, step, mainStep, pjoin]
    · refine ⟨hj, ?_⟩
      by_cases ha : Act.await ∈ acts
      · exact ha
      · exfalso
        have hw := split_await acts hu hj ha hp
        apply hs (false :: (List.replicate acts.length false ++ [false, true]))
        simp only [runOps, step, mainStep, start, Bool.false_eq_true, if_false]
        rw [runOps_append (work_run _ _ acts _ hw)]
        simp [runOps, step, mainStep, thrStep]
  · rintro ⟨hj, ha⟩ sched
    obtain ⟨s', h, _⟩ := inv_run (esrch := esrch) (n := n) sched (.idle hu hj ha)
    rw [h]
    simp

/-- **C151, then everything is right.** Under that use, in every schedule, once the owner has finished the body had ended and the thread was
joined, and until the destruction starts the object is whole. -/
theorem C151_waited_partial (esrch : Bool) (n : Nat) {acts : List Act} (hu : Use acts) (hj : .join ∉ acts) (ha : .await ∈ acts)
    (sched : List Bool) :
    ∃ s, runOps (step esrch n) (start acts) sched = .ok s ∧ (s.main = [] → s = ⟨[], .gone, .done, true⟩) ∧
      (s.phase ≠ .whole → s.thr = .done) := by
  obtain ⟨s, h, hi⟩ := inv_run (esrch := esrch) (n := n) sched (.idle hu hj ha)
  refine ⟨s, h, ?_, ?_⟩
  · intro hm
    cases hi with
    | idle => simp [start] at hm
    | before => simp [tailActs] at hm
    | after => simp [tailActs] at hm
    | d1 => simp at hm
    | d2 => simp at hm
    | finished => rfl
  · intro hph
    cases hi <;> simp_all [start]

/-- **C151 fails.** The library's own calls offer no way: an owner who uses only them (and does not poll) runs into undefined behaviour under
some schedule, whatever the body does. -/
theorem C151_library_calls_violated (esrch : Bool) (n : Nat) {acts : List Act} (h : ∀ a ∈ acts, a = .work ∨ a = .join) :
    ¬ Safe esrch n acts := by
  have hu : Use acts := fun a ha => (h a ha).elim .inl (fun e => .inr (.inr (.inr e)))
  have hp : Act.poll ∉ acts := fun hh => by rcases h _ hh with e | e <;> cases e
  have ha : Act.await ∉ acts := fun hh => by rcases h _ hh with e | e <;> cases e
  rw [C151_safe_iff esrch n hu hp]
  exact fun hh => ha hh.2

/-- **C151 fails, destroying a running thread object.** A step of the thread is undefined exactly if the destruction has begun and the thread
has not yet entered `task` (its virtual call meets a partly destroyed object) or is inside the body with an access to come. -/
theorem C151_destroyed_under_thread (esrch : Bool) (n : Nat) (s : St) :
    step esrch n s true = .ub ↔ s.phase ≠ .whole ∧ (s.thr = .started ∨ ∃ k, s.thr = .inBody (k + 1)) := by
  by_cases hp : s.phase = .whole
  · cases ht : s.thr with
    | inBody k => cases k <;> simp [step, thrStep, ht, hp]
    | _ => simp [step, thrStep, ht, hp]
  · cases ht : s.thr with
    | inBody k => cases k <;> simp [step, thrStep, ht, hp]
    | _ => simp [step, thrStep, ht, hp]

/-- **C151 fails, polling.** Where `pthread_kill` answers 0 for an ended thread, polling `isWorking` never ends: in every schedule the
owner is still there and the object whole. -/
theorem C151_poll_never_ends (n : Nat) (more : List Act) (sched : List Bool) :
    ∃ s, runOps (step false n) (start (.poll :: more)) sched = .ok s ∧ s.phase = .whole ∧
      ∃ l, s.main = l ++ (.poll :: (more ++ tailActs)) := by
  have key : ∀ (sched : List Bool) (t : Thr) (l : List Act), (l = [] ∨ l = [.run] ∧ t = .idle) →
      ∃ s, runOps (step false n) ⟨l ++ (.poll :: (more ++ tailActs)), .whole, t, false⟩ sched = .ok s ∧ s.phase = .whole ∧
        ∃ l, s.main = l ++ (.poll :: (more ++ tailActs)) := by
    intro sched
    induction sched with
    | nil => intro t l _; exact ⟨_, rfl, rfl, l, rfl⟩
    | cons w ws ih =>
      intro t l hl
      cases w with
      | true =>
        cases t with
        | idle => exact ih .idle l hl
        | done => exact ih .done l hl
        | started => exact ih (.inBody n) l (hl.imp id (fun h => by cases h.2))
        | inBody k =>
          cases k with
          | zero => exact ih .done l (hl.imp id (fun h => by cases h.2))
          | succ k => exact ih (.inBody k) l (hl.imp id (fun h => by cases h.2))
      | false =>
        rcases hl with e | ⟨e, e2⟩
        · subst e
          have := ih t [] (.inl rfl)
          simpa [runOps, step, mainStep] using this
        · subst e
          exact ih .started [] (.inl rfl)
  exact key sched .idle [.run] (.inr ⟨rfl, rfl⟩)

example : Use [.work, .await] ∧ Act.join ∉ [Act.work, .await] ∧ Act.await ∈ [Act.work, .await] ∧ Act.poll ∉ [Act.work, .await] := by
  refine ⟨?_, by decide, by decide, by decide⟩
  simp [Use]

/-- A complete run: two accesses, waiting, destruction. -/
example : runOps (step false 2) (start [.await]) [false, true, false, true, true, true, false, false, false, false] =
    .ok ⟨[], .gone, .done, true⟩ := by rfl

/-- `run(); join();` and the end of the scope. -/
example : runOps (step false 0) (start [.join]) [false, true, true, false, false, false, false] = .ub := by rfl

namespace Flame
open ThreadLife
example := C151_safe_iff true 2 (acts := [.work, .await]) (by simp [Use]) (by decide)
example := C151_waited_partial true 2 (acts := [.work, .await]) (by simp [Use]) (by decide) (by decide) [false, true, true, false]
example := C151_library_calls_violated true 2 (acts := [.work, .join]) (by decide)
end Flame

end Flame
