import Verif.Conc.UniqueLocker
import Verif.Conc.QueueProps

/-!
# C40 — lockers hold and release
-/

namespace Flame
open Conc

/-- C40: `Locker` holds the lock for exactly its scope: the lock is held by a thread exactly while that thread is between
the constructor and the destructor of its `Locker`. -/
theorem C40_locker_scope {M L Op Ret : Type} {obj : Obj M L Op Ret} {allow : Op → Prop} {m : M} {s : St M L Op Ret}
    (h : Run obj allow m s) (t : Nat) : s.lock = some t ↔ (s.thr t).inCritical = true :=
  (h.holder t).symm

/-- C40: critical sections of two `Locker`s on one lock never overlap, for any class, program and interleaving. -/
theorem C40_locker_exclusive {M L Op Ret : Type} {obj : Obj M L Op Ret} {allow : Op → Prop} {m : M} {s : St M L Op Ret}
    (h : Run obj allow m s) {t u : Nat} (ht : (s.thr t).inCritical = true) (hu : (s.thr u).inCritical = true) : t = u :=
  h.exclusive ht hu

/-- A thread in its critical section while two others wait. -/
example : ∃ s, Run (Counter.obj 8) (fun _ => True) 5 s ∧
    ((s.thr 1).inCritical, (s.thr 0).inCritical, s.thr 0, s.lock) = (true, false, .waiting .inc, some 1) :=
  Run.witness [(0, some .inc), (1, some .dec), (1, none), (1, none)]
    (fun s => ((s.thr 1).inCritical, (s.thr 0).inCritical, s.thr 0, s.lock)) _ (by simp) (by decide +kernel)

namespace UniqueLockerLemmas
open Conc.UniqueLocker Own

structure Inv (s : UniqueLocker.St) : Prop where
  holds : ∀ i l, s.held l = some (.locker i) → s.objs i = some ⟨some l, true⟩
  flag : ∀ i d, s.objs i = some ⟨d, true⟩ → ∃ l, d = some l ∧ s.held l = some (.locker i)
  log : ∀ r ∈ s.log, r.2.2 = .locker r.1

theorem inv_init : Inv init := ⟨by simp [init], by simp [init], by simp [init]⟩

/-- Replacing a locker that does not hold by one that does not hold. -/
theorem inv_set {s : UniqueLocker.St} (h : Inv s) {i : Nat} {x : Option Ob} (hi : ∀ d, s.objs i ≠ some ⟨d, true⟩)
    (hx : ∀ d, x ≠ some ⟨d, true⟩) : Inv { s with objs := upd s.objs i x } := by
  refine ⟨fun k l hk => ?_, fun k d hk => ?_, h.log⟩
  · have := h.holds k l hk
    by_cases e : k = i
    · subst e; exact absurd this (hi _)
    · simpa [upd_ne _ _ e] using this
  · by_cases e : k = i
    · subst e; simp at hk; exact absurd hk (hx d)
    · exact h.flag k d (by simpa [upd_ne _ _ e] using hk)

theorem inv_lock {s : UniqueLocker.St} (h : Inv s) {i l : Nat} (hi : s.objs i = some ⟨some l, false⟩)
    (hl : s.held l = none) :
    Inv { s with held := upd s.held l (some (.locker i)), objs := upd s.objs i (some ⟨some l, true⟩) } := by
  refine ⟨fun k m hk => ?_, fun k d hk => ?_, h.log⟩
  · by_cases em : m = l
    · subst em
      simp at hk
      subst hk
      simp
    · simp only [upd_ne _ _ em] at hk
      have := h.holds k m hk
      by_cases ek : k = i
      · subst ek; rw [hi] at this; simp at this
      · simpa [upd_ne _ _ ek] using this
  · by_cases ek : k = i
    · subst ek
      simp at hk
      exact ⟨l, hk.symm, by simp⟩
    · simp only [upd_ne _ _ ek] at hk
      obtain ⟨m, e1, e2⟩ := h.flag k d hk
      refine ⟨m, e1, ?_⟩
      by_cases em : m = l
      · subst em; rw [hl] at e2; cases e2
      · simpa [upd_ne _ _ em] using e2

theorem inv_unlock {s : UniqueLocker.St} (h : Inv s) {i l : Nat} (hi : s.objs i = some ⟨some l, true⟩)
    (hl : s.held l = some (.locker i)) {x : Option Ob} (hx : ∀ d, x ≠ some ⟨d, true⟩) :
    Inv { objs := upd s.objs i x, held := upd s.held l none, log := s.log ++ [(i, l, .locker i)] } := by
  refine ⟨fun k m hk => ?_, fun k d hk => ?_, ?_⟩
  · by_cases em : m = l
    · subst em; simp at hk
    · simp only [upd_ne _ _ em] at hk
      have := h.holds k m hk
      by_cases ek : k = i
      · subst ek; rw [hi] at this; simp at this; exact absurd this.symm em
      · simpa [upd_ne _ _ ek] using this
  · by_cases ek : k = i
    · subst ek; simp at hk; exact absurd hk (hx d)
    · simp only [upd_ne _ _ ek] at hk
      obtain ⟨m, e1, e2⟩ := h.flag k d hk
      refine ⟨m, e1, ?_⟩
      by_cases em : m = l
      · subst em; rw [hl] at e2; simp at e2; exact absurd e2.symm ek
      · simpa [upd_ne _ _ em] using e2
  · intro r hr
    rcases List.mem_append.mp hr with hr | hr
    · exact h.log r hr
    · simp at hr; subst hr; rfl

theorem handOver_none {s : UniqueLocker.St} (h : Inv s) {i j : Nat} (hj : ∀ d, s.objs j ≠ some ⟨d, true⟩) :
    handOver s.held i j = s.held := by
  funext l
  simp only [handOver]
  split
  · rename_i e; exact absurd (h.holds j l e) (hj _)
  · rfl

theorem outside_inv {s : UniqueLocker.St} (h : Inv s) {l : Nat} {o : Option Owner} (ho : ∀ i, o ≠ some (.locker i))
    (hl : ∀ i, s.held l ≠ some (.locker i)) : Inv { s with held := upd s.held l o } := by
  refine ⟨fun k m hk => ?_, fun k d hk => ?_, h.log⟩
  · by_cases em : m = l
    · subst em; simp at hk; exact absurd hk (ho k)
    · simp only [upd_ne _ _ em] at hk; exact h.holds k m hk
  · obtain ⟨m, e1, e2⟩ := h.flag k d hk
    refine ⟨m, e1, ?_⟩
    by_cases em : m = l
    · subst em; exact absurd e2 (hl k)
    · simpa [upd_ne _ _ em] using e2

theorem moveAssign_free {s : UniqueLocker.St} (h : Inv s) {i j : Nat}
    (hi : ∃ d, s.objs i = some ⟨d, false⟩) (hj : ∃ d, s.objs j = some ⟨d, false⟩) :
    ∃ s', UniqueLocker.moveAssign s i j = .ok s' ∧ Inv s' ∧ s'.log = s.log ∧ s'.held = s.held := by
  obtain ⟨d, hi⟩ := hi
  obtain ⟨e, hj⟩ := hj
  have hjf : ∀ d, s.objs j ≠ some ⟨d, true⟩ := by intro d'; rw [hj]; simp
  have hif : ∀ d, s.objs i ≠ some ⟨d, true⟩ := by intro d'; rw [hi]; simp
  simp only [UniqueLocker.moveAssign, hi, hj]
  refine ⟨_, rfl, ?_, rfl, handOver_none h hjf⟩
  rw [handOver_none h hjf]
  by_cases hij : j = i
  · subst hij
    have h1 := inv_set h hif (x := some ⟨e, false⟩) (by simp)
    have h2 := inv_set h1 (i := j) (x := some ⟨none, false⟩) (by simp) (by simp)
    have h3 := inv_set h2 (i := j) (x := some ⟨none, false⟩) (by simp) (by simp)
    simpa using h3
  · have h1 := inv_set h hif (x := some ⟨e, false⟩) (by simp)
    have h2 := inv_set h1 (i := j) (x := some ⟨none, false⟩) (by simpa [upd_ne _ _ hij] using hjf) (by simp)
    have hij' : i ≠ j := fun e => hij e.symm
    have h3 := inv_set h2 (i := i) (x := some ⟨e, false⟩) (by simp [upd_ne _ _ hij']) (by simp)
    simpa [upd_ne _ _ hij, upd_ne _ _ hij', hj] using h3

theorem map_false {o : Option Ob} (h : o.map (·.locked) = some false) : ∃ d, o = some ⟨d, false⟩ := by
  cases o with
  | none => cases h
  | some x => obtain ⟨d, b⟩ := x; simp at h; subst h; exact ⟨d, rfl⟩

theorem map_true {o : Option Ob} (h : o.map (·.locked) = some true) : ∃ d, o = some ⟨d, true⟩ := by
  cases o with
  | none => cases h
  | some x => obtain ⟨d, b⟩ := x; simp at h; subst h; exact ⟨d, rfl⟩

theorem inv_lock_op {s : UniqueLocker.St} (h : Inv s) {i : Nat} (hd : (s.objs i).bind (·.data) ≠ none) :
    UniqueLocker.lock s i = .loop ∨ ∃ s', UniqueLocker.lock s i = .ok s' ∧ Inv s' := by
  cases e : s.objs i with
  | none => rw [e] at hd; exact absurd rfl hd
  | some x =>
    obtain ⟨d, b⟩ := x
    cases d with
    | none => rw [e] at hd; exact absurd rfl hd
    | some l =>
      cases hl : s.held l with
      | some o => exact .inl (by simp [UniqueLocker.lock, e, hl])
      | none =>
        refine .inr ⟨_, by simp only [UniqueLocker.lock, e, hl]; rfl, ?_⟩
        cases b with
        | false => exact inv_lock h e hl
        | true =>
          obtain ⟨m, e1, e2⟩ := h.flag i _ e
          simp at e1; subst e1; rw [hl] at e2; cases e2

theorem inv_tryLock_op {s : UniqueLocker.St} (h : Inv s) {i : Nat} (hd : (s.objs i).bind (·.data) ≠ none) :
    ∃ s', UniqueLocker.tryLock s i = .ok s' ∧ Inv s' := by
  cases e : s.objs i with
  | none => rw [e] at hd; exact absurd rfl hd
  | some x =>
    obtain ⟨d, b⟩ := x
    cases d with
    | none => rw [e] at hd; exact absurd rfl hd
    | some l =>
      cases b with
      | true => exact ⟨s, by simp [UniqueLocker.tryLock, e], h⟩
      | false =>
        cases hl : s.held l with
        | some o => exact ⟨s, by simp [UniqueLocker.tryLock, e, hl], h⟩
        | none => exact ⟨_, by simp only [UniqueLocker.tryLock, e, hl]; rfl, inv_lock h e hl⟩

theorem inv_step {s : UniqueLocker.St} (h : Inv s) {o : UniqueLocker.Op} (hp : pre s o) (hc : careful s o) :
    step s o = .loop ∨ ∃ s', step s o = .ok s' ∧ Inv s' := by
  have fresh : ∀ {i l}, s.objs i = none → Inv { s with objs := upd s.objs i (some ⟨some l, false⟩) } :=
    fun e => inv_set h (by simp [e]) (by simp)
  cases o with
  | make i l => exact .inr ⟨_, rfl, fresh hp⟩
  | makeLock i l => exact inv_lock_op (fresh (l := l) hp) (by simp)
  | makeTryLock i l => exact .inr (inv_tryLock_op (fresh (l := l) hp) (by simp))
  | makeUnlock i l => exact hc.elim
  | lock i => exact inv_lock_op h hc
  | tryLock i => exact .inr (inv_tryLock_op h hc)
  | unlock i =>
    obtain ⟨d, e⟩ := map_true hc
    obtain ⟨l, rfl, hl⟩ := h.flag i d e
    refine .inr ⟨_, by simp [step, UniqueLocker.unlock, e, hl]; rfl, ?_⟩
    exact inv_unlock h e hl (by simp)
  | moveCtor i j =>
    obtain ⟨d, e⟩ := map_false hc
    have hij : j ≠ i := fun ee => hp.2 (ee ▸ hp.1)
    obtain ⟨s', h1, h2, _⟩ := moveAssign_free (s := { s with objs := upd s.objs i (some ⟨none, false⟩) })
      (inv_set h (by simp [hp.1]) (by simp)) (i := i) (j := j) ⟨none, by simp⟩ ⟨d, by simp [upd_ne _ _ hij, e]⟩
    exact .inr ⟨s', h1, h2⟩
  | moveAssign i j =>
    obtain ⟨s', h1, h2, _⟩ := moveAssign_free h (map_false hc.1) (map_false hc.2)
    exact .inr ⟨s', h1, h2⟩
  | copyCtor i j =>
    obtain ⟨d, e⟩ := map_false hc
    exact .inr ⟨_, rfl, inv_set h (by simp [hp.1]) (by simp [e])⟩
  | copyAssign i j =>
    rcases hc with rfl | hc
    · refine .inr ⟨_, rfl, ?_⟩
      have e : upd s.objs i (s.objs i) = s.objs := by
        funext k
        by_cases hk : k = i
        · subst hk; simp
        · simp [upd_ne _ _ hk]
      rw [e]; exact h
    obtain ⟨d, e⟩ := map_false hc.1
    obtain ⟨d', e'⟩ := map_false hc.2
    exact .inr ⟨_, rfl, inv_set h (by simp [e]) (by simp [e'])⟩
  | destroy i =>
    cases e : s.objs i with
    | none => exact absurd e hp
    | some x =>
      obtain ⟨d, b⟩ := x
      cases b with
      | false => exact .inr ⟨_, by simp [step, e]; rfl, inv_set h (by simp [e]) (by simp)⟩
      | true =>
        obtain ⟨l, rfl, hl⟩ := h.flag i d e
        refine .inr ⟨_, by simp [step, UniqueLocker.unlock, e, hl]; rfl, ?_⟩
        have := inv_unlock h e hl (x := none) (by simp)
        have e2 : upd (upd s.objs i (some ⟨some l, false⟩)) i none = upd s.objs i none := by
          funext k
          by_cases hk : k = i
          · subst hk; simp
          · simp [upd_ne _ _ hk]
        simpa [e2] using this
  | outsideLock l =>
    cases hl : s.held l with
    | some o => exact .inl (by simp [step, hl])
    | none => exact .inr ⟨_, by simp [step, hl]; rfl, outside_inv h (by simp) (by simp [hl])⟩
  | outsideUnlock l =>
    exact .inr ⟨_, rfl, outside_inv h (by simp) (by rw [show s.held l = some .outside from hp]; simp)⟩

theorem reach_inv {s : UniqueLocker.St} (h : Reach step (fun s o => pre s o ∧ careful s o) init s) : Inv s :=
  h.inv inv_init fun _ _ _ hi hp hs => by
    rcases inv_step hi hp.1 hp.2 with e | ⟨s', e, h'⟩
    · rw [hs] at e; cases e
    · rw [hs] at e; cases e; exact h'

end UniqueLockerLemmas
open UniqueLockerLemmas Own

/-- C40 (partial: a locker is moved, copied or assigned to only while it does not hold, `unlock` is called only while it
does, no `UNLOCK` construction): in every history the flag tells exactly whether the locker holds its lock, whatever is
released is released by the locker that holds it (so nothing is released twice and nobody else's lock is released), and a
locker that does not exist any more holds nothing. -/
theorem C40_unique_locker_partial {s : UniqueLocker.St}
    (h : Reach UniqueLocker.step (fun s o => UniqueLocker.pre s o ∧ UniqueLocker.careful s o) UniqueLocker.init s) :
    (∀ i l, s.held l = some (.locker i) ↔ s.objs i = some ⟨some l, true⟩) ∧
    (∀ r ∈ s.log, r.2.2 = .locker r.1) ∧ (∀ i, s.objs i = none → ∀ l, s.held l ≠ some (.locker i)) := by
  have hi := reach_inv h
  refine ⟨fun i l => ⟨hi.holds i l, fun e => ?_⟩, hi.log, fun i e l hl => ?_⟩
  · obtain ⟨m, e1, e2⟩ := hi.flag i _ e
    simp at e1; subst e1; exact e2
  · have := hi.holds i l hl
    rw [e] at this; cases this

/-- Two lockers on one lock, an outside holder, a move of an idle locker, destruction of a holder. -/
example : ∃ s, Reach UniqueLocker.step (fun s o => UniqueLocker.pre s o ∧ UniqueLocker.careful s o) UniqueLocker.init s ∧
    (s.log, s.held 7, [s.objs 0, s.objs 1, s.objs 2]) =
      ([(0, 7, .locker 0), (2, 7, .locker 2)], some .outside, [none, some ⟨none, false⟩, some ⟨some 7, false⟩]) :=
  Reach.witness (step := UniqueLocker.step) [.makeLock 0 7, .makeTryLock 1 7, .moveCtor 2 1, .destroy 0, .tryLock 2, .unlock 2, .outsideLock 7,
      .tryLock 2]
    (fun s => (s.log, s.held 7, [s.objs 0, s.objs 1, s.objs 2])) _ (by decide +kernel)

example : ∃ s, Reach UniqueLocker.step (fun s o => UniqueLocker.pre s o ∧ UniqueLocker.careful s o) UniqueLocker.init s ∧
    (s.log, s.held 7, s.held 8, [s.objs 0, s.objs 1, s.objs 2]) =
      ([(0, 7, .locker 0)], none, some (.locker 0), [some ⟨some 8, true⟩, some ⟨none, false⟩, some ⟨some 8, false⟩]) :=
  Reach.witness (step := UniqueLocker.step) [.makeLock 0 7, .make 1 7, .make 2 8, .unlock 0, .moveAssign 0 1, .copyAssign 0 2, .lock 0]
    (fun s => (s.log, s.held 7, s.held 8, [s.objs 0, s.objs 1, s.objs 2])) _ (by decide +kernel)

/-- C40 (partial): destruction releases the lock exactly if the locker holds it. -/
theorem C40_destroy_exact_partial {s s' : UniqueLocker.St}
    (h : Reach UniqueLocker.step (fun s o => UniqueLocker.pre s o ∧ UniqueLocker.careful s o) UniqueLocker.init s) {i : Nat}
    (hs : UniqueLocker.step s (.destroy i) = .ok s') (l : Nat) :
    (s.held l = some (.locker i) → s'.held l = none ∧ s'.log = s.log ++ [(i, l, .locker i)]) ∧
    (s.held l ≠ some (.locker i) → s'.held l = s.held l) := by
  have hi := reach_inv h
  cases e : s.objs i with
  | none => simp [UniqueLocker.step, e] at hs
  | some x =>
    obtain ⟨d, b⟩ := x
    cases b with
    | false =>
      simp [UniqueLocker.step, e] at hs
      subst hs
      refine ⟨fun hh => ?_, fun _ => rfl⟩
      have := hi.holds i l hh
      rw [e] at this; simp at this
    | true =>
      obtain ⟨m, rfl, hm⟩ := hi.flag i d e
      simp [UniqueLocker.step, UniqueLocker.unlock, e, hm] at hs
      subst hs
      refine ⟨fun hh => ?_, fun hh => ?_⟩
      · have := hi.holds i l hh
        rw [e] at this; simp at this; subst this
        simp
      · have : l ≠ m := fun ee => hh (ee ▸ hm)
        simp [upd_ne _ _ this]

/-- C40 (partial): under the same restrictions nothing undefined happens; the only thing that can go wrong is waiting for a lock
that is held. -/
theorem C40_no_ub_partial {s : UniqueLocker.St}
    (h : Reach UniqueLocker.step (fun s o => UniqueLocker.pre s o ∧ UniqueLocker.careful s o) UniqueLocker.init s)
    {o : UniqueLocker.Op} (hp : UniqueLocker.pre s o) (hc : UniqueLocker.careful s o) : UniqueLocker.step s o ≠ .ub := by
  rcases inv_step (reach_inv h) hp hc with e | ⟨_, e, _⟩ <;> rw [e] <;> simp

/-- C40 violated: moving a locker that holds its lock.  The new locker's destructor does not release the lock, and the old one's
destructor calls a null pointer. -/
theorem C40_move_of_holder {s : UniqueLocker.St} {i j l : Nat} (hj : s.objs j = some ⟨some l, true⟩)
    (hi : s.objs i = none) (hl : s.held l = some (.locker j)) :
    ∃ s₁, UniqueLocker.step s (.moveCtor i j) = .ok s₁ ∧
      (∃ s₂, UniqueLocker.step s₁ (.destroy i) = .ok s₂ ∧ s₂.held l = some (.locker i) ∧ s₂.log = s.log) ∧
      UniqueLocker.step s₁ (.destroy j) = .ub := by
  have hij : j ≠ i := fun e => by rw [e, hi] at hj; cases hj
  have hij' : i ≠ j := fun e => hij e.symm
  refine ⟨_, by simp [UniqueLocker.step, UniqueLocker.moveAssign, upd_ne _ _ hij, hj]; rfl, ?_, ?_⟩
  · refine ⟨_, by simp [UniqueLocker.step, upd_ne _ _ hij']; rfl, ?_, ?_⟩
    · simp [UniqueLocker.handOver, hl]
    · rfl
  · simp [UniqueLocker.step, UniqueLocker.unlock, upd_ne _ _ hij, hj]

/-- The situation arises: construct with `LOCK`. -/
example : ∃ s, Reach UniqueLocker.step UniqueLocker.pre UniqueLocker.init s ∧
    (s.objs 1, s.objs 2, s.held 7) = (some ⟨some 7, true⟩, none, some (.locker 1)) :=
  Reach.witness (step := UniqueLocker.step) [.makeLock 1 7] (fun s => (s.objs 1, s.objs 2, s.held 7)) _ (by decide +kernel)

/-- C40 violated: assigning to a locker that holds (by move) makes it forget the lock, which stays locked for ever. -/
theorem C40_move_onto_holder {s : UniqueLocker.St} {i j l : Nat} {d : Option Nat} (hi : s.objs i = some ⟨some l, true⟩)
    (hj : s.objs j = some ⟨d, false⟩) (hl : s.held l = some (.locker i)) :
    ∃ s₁ s₂, UniqueLocker.step s (.moveAssign i j) = .ok s₁ ∧ UniqueLocker.step s₁ (.destroy i) = .ok s₂ ∧
      s₂.held l = some (.locker i) ∧ s₂.log = s.log := by
  have hij : j ≠ i := fun e => by rw [e, hi] at hj; simp at hj
  have hij' : i ≠ j := fun e => hij e.symm
  refine ⟨_, _, by simp [UniqueLocker.step, UniqueLocker.moveAssign, hi, hj]; rfl,
    by simp [UniqueLocker.step, upd_ne _ _ hij']; rfl, ?_, ?_⟩
  · simp [UniqueLocker.handOver, hl]
  · rfl

/-- C40 violated: self-move of a locker that holds makes it forget the lock. -/
theorem C40_self_move {s : UniqueLocker.St} {i l : Nat} (hi : s.objs i = some ⟨some l, true⟩)
    (hl : s.held l = some (.locker i)) :
    ∃ s₁ s₂, UniqueLocker.step s (.moveAssign i i) = .ok s₁ ∧ s₁.objs i = some ⟨none, false⟩ ∧
      UniqueLocker.step s₁ (.destroy i) = .ok s₂ ∧ s₂.held l = some (.locker i) := by
  refine ⟨_, _, by simp [UniqueLocker.step, UniqueLocker.moveAssign, hi]; rfl, by simp,
    by simp [UniqueLocker.step]; rfl, ?_⟩
  simp [UniqueLocker.handOver, hl]

/-- C40 violated: a copy of a locker that holds releases the lock a second time: undefined if it is free by then; if somebody else
locked it in between, their lock is released. -/
theorem C40_copy_double_release {s : UniqueLocker.St} {i j l : Nat} (hj : s.objs j = some ⟨some l, true⟩)
    (hi : s.objs i = none) (hl : s.held l = some (.locker j)) :
    ∃ s₁ s₂ s₃ s₄, UniqueLocker.step s (.copyCtor i j) = .ok s₁ ∧ UniqueLocker.step s₁ (.destroy j) = .ok s₂ ∧
      UniqueLocker.step s₂ (.destroy i) = .ub ∧
      UniqueLocker.step s₂ (.outsideLock l) = .ok s₃ ∧ UniqueLocker.step s₃ (.destroy i) = .ok s₄ ∧ s₄.held l = none := by
  have hij : j ≠ i := fun e => by rw [e, hi] at hj; cases hj
  have hij' : i ≠ j := fun e => hij e.symm
  refine ⟨_, _, _, _, rfl, by simp [UniqueLocker.step, UniqueLocker.unlock, upd_ne _ _ hij, hj, hl]; rfl, ?_,
    by simp [UniqueLocker.step]; rfl, by simp [UniqueLocker.step, UniqueLocker.unlock, upd_ne _ _ hij', hj]; rfl, ?_⟩
  · simp [UniqueLocker.step, UniqueLocker.unlock, upd_ne _ _ hij', hj]
  · simp

/-- C40 violated: `unlock` of a locker that does not hold, and construction with `UNLOCK`, release a lock held by somebody
else, and are undefined if nobody holds it. -/
theorem C40_unlock_foreign {s : UniqueLocker.St} {i l : Nat} (hi : s.objs i = some ⟨some l, false⟩) :
    (∀ o, s.held l = some o → ∃ s', UniqueLocker.step s (.unlock i) = .ok s' ∧ s'.held l = none) ∧
    (s.held l = none → UniqueLocker.step s (.unlock i) = .ub) := by
  refine ⟨fun o ho => ⟨_, by simp [UniqueLocker.step, UniqueLocker.unlock, hi, ho]; rfl, by simp⟩, fun ho => ?_⟩
  simp [UniqueLocker.step, UniqueLocker.unlock, hi, ho]

theorem C40_unlock_construction {s : UniqueLocker.St} {i l : Nat} (_hi : s.objs i = none) :
    (∀ o, s.held l = some o → ∃ s', UniqueLocker.step s (.makeUnlock i l) = .ok s' ∧ s'.held l = none) ∧
    (s.held l = none → UniqueLocker.step s (.makeUnlock i l) = .ub) := by
  refine ⟨fun o ho => ⟨_, by simp [UniqueLocker.step, UniqueLocker.unlock, ho]; rfl, by simp⟩, fun ho => ?_⟩
  simp [UniqueLocker.step, UniqueLocker.unlock, ho]

/-- C40: `lock` on a locker that already holds waits for itself. -/
theorem C40_relock_blocks {s : UniqueLocker.St} {i l : Nat} (hi : s.objs i = some ⟨some l, true⟩)
    (hl : s.held l = some (.locker i)) : UniqueLocker.step s (.lock i) = .loop := by
  simp [UniqueLocker.step, UniqueLocker.lock, hi, hl]

/-! The theorems at concrete lockers. -/

/-- Locker 1 holds lock 7, locker 2 refers to it, locker 3 to the free lock 8. -/
def UniqueLocker.exState : Conc.UniqueLocker.St :=
  visit UniqueLocker.step (fun s o => UniqueLocker.pre s o ∧ UniqueLocker.careful s o) UniqueLocker.init [.makeLock 1 7, .make 2 7, .make 3 8]

theorem UniqueLocker.exState_reach : Reach UniqueLocker.step (fun s o => UniqueLocker.pre s o ∧ UniqueLocker.careful s o) UniqueLocker.init
    UniqueLocker.exState := .visit _ (by decide +kernel)

example := C40_destroy_exact_partial UniqueLocker.exState_reach (i := 1) (s' := _) rfl 7
example := C40_no_ub_partial UniqueLocker.exState_reach (o := .unlock 1) (by decide +kernel) (by decide +kernel)
example := C40_move_onto_holder (s := UniqueLocker.exState) (i := 1) (j := 2) (l := 7) rfl rfl rfl
example := C40_self_move (s := UniqueLocker.exState) (i := 1) (l := 7) rfl rfl
example := C40_copy_double_release (s := UniqueLocker.exState) (i := 5) (j := 1) (l := 7) rfl rfl rfl
example := C40_unlock_foreign (s := UniqueLocker.exState) (i := 2) (l := 7) rfl
example := C40_unlock_construction (s := UniqueLocker.exState) (i := 5) (l := 7) rfl
example := C40_relock_blocks (s := UniqueLocker.exState) (i := 1) (l := 7) rfl rfl

namespace Flame
open Conc
example := (show ∃ s, Run (Counter.obj 8) (fun _ => True) 5 s ∧ s.lock = some 1 from
  Run.witness [(0, some .inc), (1, some .dec), (1, none), (1, none)] (fun s => s.lock) _ (by simp) (by decide +kernel)).imp fun _ h =>
  C40_locker_scope h.1 1
end Flame

end Flame
