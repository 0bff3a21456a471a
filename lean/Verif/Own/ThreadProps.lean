import Verif.Own.Thread

/-! # C71: every started thread is joined exactly once, while its object exists -/

namespace Flame.Own.Thread

structure Inv (s : St) : Prop where
  ledger : Ledger (owner s) s.log
  fresh : ∀ r, .made r ∈ s.log → r < s.next
  idle : ∀ i o, s.vars i = some o → o.ctx = .initializer ∨ ∃ r, o = ⟨.thr r, 0⟩

theorem inv_init : Inv init := ⟨Ledger.init.congr (by intro i; rfl), by simp [init], by simp [init]⟩

theorem owner_upd (s : St) (i k : Nat) (o : Option Obj) :
    ((upd s.vars i o) k).bind (fun o => ctxThr o.ctx) = upd (owner s) i (o.bind fun o => ctxThr o.ctx) k := by
  by_cases hk : k = i
  · subst hk; simp
  · rw [upd_ne _ _ hk, upd_ne _ _ hk]; rfl

theorem owner_thr {s : St} {i r : Nat} (h : owner s i = some r) : ∃ st, s.vars i = some ⟨.thr r, st⟩ := by
  unfold owner at h
  cases hv : s.vars i with
  | none => rw [hv] at h; cases h
  | some o =>
    obtain ⟨c, st⟩ := o
    rw [hv] at h
    cases c <;> simp [ctxThr] at h
    subst h
    exact ⟨st, rfl⟩

theorem owner_none_init {s : St} (h : Inv s) {i : Nat} {o : Obj} (hv : s.vars i = some o) (ho : owner s i = none) :
    o.ctx = .initializer := by
  rcases h.idle i o hv with e | ⟨r, e⟩
  · exact e
  · subst e; simp [owner, hv, ctxThr] at ho

theorem fresh_log {s : St} (h : Inv s) : Ev.made s.next ∉ s.log ∧ Ev.closed s.next ∉ s.log :=
  have h1 : .made s.next ∉ s.log := fun hm => Nat.lt_irrefl _ (h.fresh _ hm)
  ⟨h1, fun hc => h1 (closed_made h.ledger.proper hc)⟩

theorem step_ok {s : St} (h : Inv s) {o : Op} (hp : careful s o) : ∃ s', step s o = .ok s' ∧ Inv s' := by
  obtain ⟨hp, hc⟩ := hp
  cases o with
  | moveCtor i j => exact absurd hc id
  | runFail i e => exact absurd hc id
  | join i => exact absurd hc id
  | detach i => exact absurd hc id
  | create i =>
    simp only [pre] at hp
    refine ⟨{ s with vars := upd s.vars i (some ⟨.initializer, 0⟩) }, by simp [step, hp], ?_, h.fresh, ?_⟩
    · refine h.ledger.congr ?_
      intro k
      refine (owner_upd s i k _).trans ?_
      by_cases hk : k = i
      · subst hk; simp [ctxThr, owner, hp]
      · rw [upd_ne _ _ hk]
    · intro k o hk
      by_cases hki : k = i
      · subst hki; simp at hk; subst hk; exact .inl rfl
      · simp only [upd_ne _ _ hki] at hk; exact h.idle k o hk
  | moveAssign i j =>
    obtain ⟨hi, hj⟩ := hp
    obtain ⟨u, hu⟩ := Option.ne_none_iff_exists'.mp hi
    obtain ⟨v, hv⟩ := Option.ne_none_iff_exists'.mp hj
    have hui := owner_none_init h hu hc.1
    refine ⟨{ s with vars := upd (upd s.vars i (some v)) j (some ⟨.initializer, 0⟩) },
      by simp [step, hu, hv, isInit, hui], ?_, h.fresh, ?_⟩
    · refine (h.ledger.move (i := i) (j := j) hc.1 hc.2).congr ?_
      intro k
      show ((upd (upd s.vars i (some v)) j (some ⟨.initializer, 0⟩)) k).bind _ = _
      by_cases hkj : k = j
      · subst hkj; simp [ctxThr]
      · rw [upd_ne _ _ hkj, upd_ne _ _ hkj, owner_upd]
        by_cases hki : k = i
        · subst hki; simp [owner, hv]
        · rw [upd_ne _ _ hki, upd_ne _ _ hki]
    · intro k o hk
      by_cases hkj : k = j
      · subst hkj; simp at hk; subst hk; exact .inl rfl
      · simp only [upd_ne _ _ hkj] at hk
        by_cases hki : k = i
        · subst hki; simp only [upd_self, Option.some.injEq] at hk; subst hk; exact h.idle j _ hv
        · rw [upd_ne _ _ hki] at hk; exact h.idle k o hk
  | run i =>
    obtain ⟨o, ho⟩ := Option.ne_none_iff_exists'.mp (show s.vars i ≠ none from hp)
    have hoi := owner_none_init h ho hc
    refine ⟨{ s with vars := upd s.vars i (some ⟨.thr s.next, 0⟩), next := s.next + 1,
                     log := .made s.next :: s.log, host := upd s.host s.next i },
      by simp [step, ho, prepared, isInit, hoi], ?_, ?_, ?_⟩
    · refine (h.ledger.make (i := i) hc (fresh_log h).1 (fresh_log h).2).congr ?_
      intro k
      exact owner_upd s i k _
    · intro r hr
      rcases List.mem_cons.mp hr with e | e
      · injection e with e; subst e; exact Nat.lt_succ_self _
      · exact Nat.lt_succ_of_lt (h.fresh r e)
    · intro k o hk
      by_cases hki : k = i
      · subst hki; simp at hk; subst hk; exact .inr ⟨_, rfl⟩
      · simp only [upd_ne _ _ hki] at hk; exact h.idle k o hk
  | drop i =>
    obtain ⟨o, ho⟩ := Option.ne_none_iff_exists'.mp (show s.vars i ≠ none from hp)
    have hidle : ∀ k o, upd s.vars i none k = some o → o.ctx = .initializer ∨ ∃ r, o = ⟨.thr r, 0⟩ := by
      intro k o hk
      by_cases hki : k = i
      · subst hki; simp at hk
      · simp only [upd_ne _ _ hki] at hk; exact h.idle k o hk
    rcases h.idle i o ho with e | ⟨r, e⟩
    · refine ⟨{ s with vars := upd s.vars i none, dangling := working s.host s.next i s.log ++ s.dangling },
        by simp [step, ho, isInit, e], ?_, h.fresh, hidle⟩
      refine h.ledger.congr ?_
      intro k
      refine (owner_upd s i k _).trans ?_
      by_cases hk : k = i
      · subst hk; simp [owner, ho, e, ctxThr]
      · rw [upd_ne _ _ hk]
    · subst e
      have hown : owner s i = some r := by simp [owner, ho, ctxThr]
      refine ⟨{ s with vars := upd s.vars i none, log := .closed r :: s.log,
                       dangling := working s.host s.next i (.closed r :: s.log) ++ s.dangling },
        by simp [step, ho, isInit, joinLog, h.ledger.ownedLive i r hown], ?_, ?_, hidle⟩
      · refine (h.ledger.close hown).congr ?_
        intro k
        exact owner_upd s i k _
      · intro q hq; exact h.fresh q (by simpa using hq)

theorem reach_inv {s : St} (h : Reach step careful init s) : Inv s :=
  h.inv inv_init (fun s o s' hi hp he => by
    obtain ⟨u, hu, hinv⟩ := step_ok hi hp
    rw [he] at hu
    injection hu with hu
    subst hu
    exact hinv)

theorem stay_careful {s : St} (h : Reach step stay init s) : Reach step careful init s := by
  induction h with
  | start => exact .start
  | step _ hp he ih => exact .step ih hp.1 he

/-- Threads stay with their objects. -/
def Home (s : St) : Prop := (∀ i r, owner s i = some r → s.host r = i) ∧ s.dangling = []

theorem working_nil {s : St} (h : Inv s) (hh : Home s) {i : Nat} {log : List Ev}
    (hl : ∀ r, Live r log → ∃ k, k ≠ i ∧ owner s k = some r) : working s.host s.next i log = [] := by
  unfold working
  rw [List.filter_eq_nil_iff]
  intro r _ hr
  obtain ⟨hr1, hr2⟩ := of_decide_eq_true hr
  obtain ⟨k, hk, ho⟩ := hl r hr2
  exact hk ((hh.1 k r ho).symm.trans hr1)

theorem home_step {s s' : St} {o : Op} (h : Inv s) (hh : Home s) (hp : stay s o) (he : step s o = .ok s') :
    Home s' := by
  obtain ⟨⟨hp, hc⟩, hs⟩ := hp
  cases o with
  | moveCtor i j => exact absurd hc id
  | runFail i e => exact absurd hc id
  | join i => exact absurd hc id
  | detach i => exact absurd hc id
  | create i =>
    simp only [pre] at hp
    simp only [step, hp, Res.ok.injEq] at he
    subst he
    refine ⟨?_, hh.2⟩
    intro k r hk
    replace hk := (owner_upd s i k _).symm.trans hk
    by_cases hki : k = i
    · subst hki; simp [ctxThr] at hk
    · rw [upd_ne _ _ hki] at hk; exact hh.1 k r hk
  | moveAssign i j =>
    obtain ⟨hi, hj⟩ := hp
    obtain ⟨u, hu⟩ := Option.ne_none_iff_exists'.mp hi
    obtain ⟨v, hv⟩ := Option.ne_none_iff_exists'.mp hj
    have hui := owner_none_init h hu hc.1
    have hvi := owner_none_init h hv hs
    simp only [step, hu, hv, isInit, hui, Res.ok.injEq] at he
    subst he
    refine ⟨?_, hh.2⟩
    intro k r hk
    replace hk : ((upd (upd s.vars i (some v)) j (some ⟨.initializer, 0⟩)) k).bind (fun o => ctxThr o.ctx) = some r := hk
    by_cases hkj : k = j
    · subst hkj; simp [ctxThr] at hk
    · rw [upd_ne _ _ hkj] at hk
      by_cases hki : k = i
      · subst hki; simp [ctxThr, hvi] at hk
      · rw [upd_ne _ _ hki] at hk; exact hh.1 k r hk
  | run i =>
    obtain ⟨o, ho⟩ := Option.ne_none_iff_exists'.mp (show s.vars i ≠ none from hp)
    have hoi := owner_none_init h ho hc
    simp only [step, ho, prepared, isInit, hoi, Res.ok.injEq] at he
    subst he
    refine ⟨?_, hh.2⟩
    intro k r hk
    replace hk := (owner_upd s i k _).symm.trans hk
    by_cases hki : k = i
    · subst hki
      simp [ctxThr] at hk
      subst hk
      simp
    · rw [upd_ne _ _ hki] at hk
      have : r ≠ s.next := by
        intro e; subst e
        exact Nat.lt_irrefl _ (h.fresh _ (h.ledger.ownedLive k _ hk).1)
      show upd s.host s.next i r = k
      rw [upd_ne _ _ this]
      exact hh.1 k r hk
  | drop i =>
    obtain ⟨o, ho⟩ := Option.ne_none_iff_exists'.mp (show s.vars i ≠ none from hp)
    have hown : ∀ k r, upd (owner s) i none k = some r → s.host r = k := by
      intro k r hk
      by_cases hki : k = i
      · subst hki; simp at hk
      · rw [upd_ne _ _ hki] at hk; exact hh.1 k r hk
    rcases h.idle i o ho with e | ⟨r, e⟩
    · simp only [step, ho, isInit, e, Res.ok.injEq] at he
      subst he
      refine ⟨fun k r hk => hown k r ((owner_upd s i k _).symm.trans hk), ?_⟩
      show working s.host s.next i s.log ++ s.dangling = []
      rw [hh.2, working_nil h hh]
      · rfl
      · intro q hq
        obtain ⟨k, hk⟩ := h.ledger.noOrphan q hq
        refine ⟨k, ?_, hk⟩
        intro hki
        subst hki
        simp [owner, ho, e, ctxThr] at hk
    · subst e
      have hoi : owner s i = some r := by simp [owner, ho, ctxThr]
      have hlive := h.ledger.ownedLive i r hoi
      simp only [step, ho, isInit, joinLog, hlive, if_true, Res.ok.injEq] at he
      subst he
      refine ⟨fun k r hk => hown k r ((owner_upd s i k _).symm.trans hk), ?_⟩
      show working s.host s.next i (.closed r :: s.log) ++ s.dangling = []
      rw [hh.2, working_nil h hh]
      · rfl
      · intro q hq
        obtain ⟨k, hk⟩ := (h.ledger.close hoi).noOrphan q hq
        by_cases hki : k = i
        · subst hki; simp at hk
        · rw [upd_ne _ _ hki] at hk; exact ⟨k, hki, hk⟩

theorem reach_home {s : St} (h : Reach step stay init s) : Home s := by
  induction h with
  | start => exact ⟨by simp [owner, init], rfl⟩
  | step hr hp he ih => exact home_step (reach_inv (stay_careful hr)) ih hp he

/-! ## Facts about arbitrary calls -/

/-- `made`, `closed` events never disappear. -/
theorem log_grows {s s' : St} {o : Op} (he : step s o = .ok s') {e : Ev} (h : e ∈ s.log) : e ∈ s'.log := by
  cases o with
  | create i =>
    simp only [step] at he
    split at he <;> simp only [Res.ok.injEq, reduceCtorEq] at he
    subst he; exact h
  | moveCtor i j =>
    simp only [step, isInit] at he
    split at he <;> simp at he
  | moveAssign i j =>
    simp only [step] at he
    split at he
    · split at he <;> simp only [Res.ok.injEq, reduceCtorEq] at he
      subst he; exact h
    · cases he
  | run i =>
    simp only [step] at he
    split at he
    · split at he <;> simp only [Res.ok.injEq, reduceCtorEq] at he
      · subst he; exact List.mem_cons_of_mem _ h
      · subst he; exact h
    · cases he
  | runFail i e =>
    simp only [step] at he
    split at he
    · split at he <;> simp only [Res.ok.injEq, reduceCtorEq] at he <;> (subst he; exact h)
    · cases he
  | join i =>
    simp only [step] at he
    split at he
    · split at he <;> simp only [Res.ok.injEq, reduceCtorEq] at he
      rename_i log hl
      subst he
      unfold joinLog at hl
      split at hl
      · split at hl
        · injection hl with hl; subst hl; exact List.mem_cons_of_mem _ h
        · cases hl
      · cases hl
    · cases he
  | detach i =>
    simp only [step] at he
    split at he
    · split at he <;> simp only [Res.ok.injEq, reduceCtorEq] at he
      rename_i log hl
      simp only [detachLog, attrDestroy] at hl
      split at hl
      · split at hl <;> cases hl
      · cases hl
    · cases he
  | drop i =>
    simp only [step] at he
    split at he
    · split at he <;> try simp only [Res.ok.injEq, reduceCtorEq] at he
      · subst he; exact h
      · split at he <;> simp only [Res.ok.injEq, reduceCtorEq] at he
        rename_i log hl
        subst he
        unfold joinLog at hl
        split at hl
        · split at hl
          · injection hl with hl; subst hl; exact List.mem_cons_of_mem _ h
          · cases hl
        · cases hl
    · cases he

/-- An operation that does not involve an object leaves it alone. -/
theorem untouched {s s' : St} {o : Op} (he : step s o = .ok s') {k : Nat} (hk : ¬ o.touches k) :
    s'.vars k = s.vars k := by
  cases o with
  | create i =>
    simp only [step] at he
    split at he <;> simp only [Res.ok.injEq, reduceCtorEq] at he
    subst he; exact upd_ne _ _ hk
  | moveCtor i j =>
    simp only [step, isInit] at he
    split at he <;> simp at he
  | moveAssign i j =>
    simp only [Op.touches, not_or] at hk
    simp only [step] at he
    split at he
    · split at he <;> simp only [Res.ok.injEq, reduceCtorEq] at he
      subst he
      show upd (upd s.vars i _) j _ k = _
      rw [upd_ne _ _ hk.2, upd_ne _ _ hk.1]
    · cases he
  | run i =>
    simp only [step] at he
    split at he
    · split at he <;> simp only [Res.ok.injEq, reduceCtorEq] at he
      · subst he; exact upd_ne _ _ hk
      · subst he; rfl
    · cases he
  | runFail i e =>
    simp only [step] at he
    split at he
    · split at he <;> simp only [Res.ok.injEq, reduceCtorEq] at he
      · subst he; exact upd_ne _ _ hk
      · subst he; rfl
    · cases he
  | join i =>
    simp only [step] at he
    split at he
    · split at he <;> simp only [Res.ok.injEq, reduceCtorEq] at he
      subst he; exact upd_ne _ _ hk
    · cases he
  | detach i =>
    simp only [step] at he
    split at he
    · split at he <;> simp only [Res.ok.injEq, reduceCtorEq] at he
      subst he; exact upd_ne _ _ hk
    · cases he
  | drop i =>
    simp only [step] at he
    split at he
    · split at he <;> try simp only [Res.ok.injEq, reduceCtorEq] at he
      · subst he; exact upd_ne _ _ hk
      · split at he <;> simp only [Res.ok.injEq, reduceCtorEq] at he
        subst he; exact upd_ne _ _ hk
    · cases he

/-- A thread nobody holds the identifier of. -/
def Lost (r : Nat) (s : St) : Prop := Live r s.log ∧ r < s.next ∧ ∀ k st, s.vars k ≠ some ⟨.thr r, st⟩

theorem lost_vars {s : St} {r i : Nat} {o : Option Obj} (h : ∀ k st, s.vars k ≠ some ⟨.thr r, st⟩)
    (ho : ∀ st, o ≠ some ⟨.thr r, st⟩) (k : Nat) (st : Int) : upd s.vars i o k ≠ some ⟨.thr r, st⟩ := by
  by_cases hk : k = i
  · subst hk; rw [upd_self]; exact ho st
  · rw [upd_ne _ _ hk]; exact h k st

theorem joinLog_lost {s : St} {r i : Nat} {o : Obj} (h : Lost r s) (ho : s.vars i = some o) {log : List Ev}
    (hl : joinLog s.log o.ctx = .ok log) : Live r log := by
  obtain ⟨c, st⟩ := o
  cases c with
  | thr q =>
    simp only [joinLog] at hl
    split at hl
    · injection hl with hl
      subst hl
      have : q ≠ r := by intro e; subst e; exact h.2.2 i st ho
      refine ⟨List.mem_cons_of_mem _ h.1.1, ?_⟩
      intro hc
      rcases List.mem_cons.mp hc with e | e
      · injection e with e; exact this e.symm
      · exact h.1.2 e
    · cases hl
  | initializer => cases hl
  | ready => cases hl
  | indet => cases hl

/-- Once lost, always lost. -/
theorem lost_step {s s' : St} {o : Op} {r : Nat} (h : Lost r s) (he : step s o = .ok s') : Lost r s' := by
  cases o with
  | create i =>
    simp only [step] at he
    split at he <;> simp only [Res.ok.injEq, reduceCtorEq] at he
    subst he
    exact ⟨h.1, h.2.1, fun k st => lost_vars h.2.2 (by simp) k st⟩
  | moveCtor i j =>
    simp only [step, isInit] at he
    split at he <;> simp at he
  | moveAssign i j =>
    simp only [step] at he
    split at he
    · rename_i u v hu hv
      split at he <;> simp only [Res.ok.injEq, reduceCtorEq] at he
      subst he
      refine ⟨h.1, h.2.1, fun k st => ?_⟩
      show upd (upd s.vars i (some v)) j _ k ≠ _
      by_cases hk : k = j
      · subst hk; simp
      · rw [upd_ne _ _ hk]
        exact lost_vars h.2.2 (by intro st; rw [← hv]; exact h.2.2 j st) k st
    · cases he
  | run i =>
    simp only [step] at he
    split at he
    · split at he <;> simp only [Res.ok.injEq, reduceCtorEq] at he
      · subst he
        refine ⟨⟨List.mem_cons_of_mem _ h.1.1, by simpa using h.1.2⟩, Nat.lt_succ_of_lt h.2.1,
          fun k st => lost_vars h.2.2 ?_ k st⟩
        intro st e
        simp only [Option.some.injEq, Obj.mk.injEq, Ctx.thr.injEq] at e
        exact absurd h.2.1 (by rw [e.1]; exact Nat.lt_irrefl _)
      · subst he; exact h
    · cases he
  | runFail i e =>
    simp only [step] at he
    split at he
    · split at he <;> simp only [Res.ok.injEq, reduceCtorEq] at he
      · subst he
        exact ⟨h.1, h.2.1, fun k st => lost_vars h.2.2 (by simp) k st⟩
      · subst he; exact h
    · cases he
  | join i =>
    simp only [step] at he
    split at he
    · rename_i o ho
      split at he <;> simp only [Res.ok.injEq, reduceCtorEq] at he
      rename_i log hl
      subst he
      refine ⟨joinLog_lost h ho hl, h.2.1, fun k st => lost_vars h.2.2 ?_ k st⟩
      intro st' e
      obtain ⟨c, st''⟩ := o
      simp only [Option.some.injEq, Obj.mk.injEq] at e
      rw [e.1] at ho
      exact h.2.2 i _ ho
    · cases he
  | detach i =>
    simp only [step] at he
    split at he
    · split at he <;> simp only [Res.ok.injEq, reduceCtorEq] at he
      rename_i log hl
      simp only [detachLog, attrDestroy] at hl
      split at hl
      · split at hl <;> cases hl
      · cases hl
    · cases he
  | drop i =>
    simp only [step] at he
    split at he
    · rename_i o ho
      split at he <;> try simp only [Res.ok.injEq, reduceCtorEq] at he
      · subst he
        exact ⟨h.1, h.2.1, fun k st => lost_vars h.2.2 (by simp) k st⟩
      · split at he <;> simp only [Res.ok.injEq, reduceCtorEq] at he
        rename_i log hl
        subst he
        exact ⟨joinLog_lost h ho hl, h.2.1, fun k st => lost_vars h.2.2 (by simp) k st⟩
    · cases he

theorem lost_forever {s s' : St} {r : Nat} {os : List Op} (h : Lost r s) (he : runOps step s os = .ok s') :
    Live r s'.log := by
  induction os generalizing s with
  | nil => simp only [runOps_nil, Res.ok.injEq] at he; subst he; exact h.1
  | cons o os ih =>
    simp only [runOps] at he
    cases hs : step s o with
    | ok t => rw [hs] at he; exact ih (lost_step h hs) he
    | ub => rw [hs] at he; cases he
    | loop => rw [hs] at he; cases he

/-- Operations that do not involve `i` keep its identifier and keep a joined thread joined. -/
theorem others {s s' : St} {i : Nat} {os : List Op} (ho : ∀ o ∈ os, ¬ o.touches i) (he : runOps step s os = .ok s') :
    s'.vars i = s.vars i ∧ ∀ e ∈ s.log, e ∈ s'.log := by
  induction os generalizing s with
  | nil => simp only [runOps_nil, Res.ok.injEq] at he; subst he; exact ⟨rfl, fun _ h => h⟩
  | cons o os ih =>
    simp only [runOps] at he
    cases hs : step s o with
    | ok t =>
      rw [hs] at he
      obtain ⟨h1, h2⟩ := ih (fun o' h' => ho o' (List.mem_cons_of_mem _ h')) he
      exact ⟨h1.trans (untouched hs (ho o List.mem_cons_self)), fun e h => h2 e (log_grows hs h)⟩
    | ub => rw [hs] at he; cases he
    | loop => rw [hs] at he; cases he

end Flame.Own.Thread

namespace Flame

open Own Own.Thread

/-- **C71, what holds.** If objects are only run while idle, never joined or detached by hand, and moved only onto idle
objects, and thread creation does not fail, then nothing undefined happens, no thread is joined twice, and when all
objects are gone every thread ever started was joined exactly once. -/
theorem C71_thread_partial {s : Own.Thread.St} (h : Reach Own.Thread.step Own.Thread.careful Own.Thread.init s) :
    Ledger (Own.Thread.owner s) s.log ∧ ((∀ i, s.vars i = none) → ReleasedOnce s.log) ∧
    ∀ o, Own.Thread.careful s o → ∃ s', Own.Thread.step s o = .ok s' :=
  ⟨(reach_inv h).ledger, fun hg => (reach_inv h).ledger.releasedOnce (by intro i; simp [owner, hg i]),
    fun _ hp => let ⟨s', hs, _⟩ := step_ok (reach_inv h) hp; ⟨s', hs⟩⟩

/-- **C71, what holds.** If moreover objects with a thread are not moved, no thread outlives the object it works on. -/
theorem C71_object_outlives_thread_partial {s : Own.Thread.St}
    (h : Reach Own.Thread.step Own.Thread.stay Own.Thread.init s) : s.dangling = [] :=
  (reach_home h).2

/-- **C71 fails.** After a successful `join()`, and whatever is done to other objects, both a second `join()` and the
destructor of the object are undefined: `join` does not reset the context. -/
theorem C71_join_then_drop_ub {s s₁ s₂ : Own.Thread.St} {i : Nat} {os : List Own.Thread.Op}
    (hj : Own.Thread.step s (.join i) = .ok s₁) (ho : ∀ o ∈ os, ¬ o.touches i)
    (hs : runOps Own.Thread.step s₁ os = .ok s₂) :
    Own.Thread.step s₂ (.drop i) = .ub ∧ Own.Thread.step s₂ (.join i) = .ub := by
  simp only [step] at hj
  split at hj
  · rename_i o hv
    split at hj <;> simp only [Res.ok.injEq, reduceCtorEq] at hj
    rename_i log hl
    obtain ⟨c, st⟩ := o
    cases c with
    | thr r =>
      simp only [joinLog] at hl
      split at hl
      · injection hl with hl
        subst hl hj
        obtain ⟨h1, h2⟩ := others ho hs
        replace h1 : s₂.vars i = some ⟨.thr r, 0⟩ := by rw [h1]; exact upd_self _ _ _
        have hn : ¬ Live r s₂.log := fun hl => hl.2 (h2 _ List.mem_cons_self)
        exact ⟨by simp [step, h1, isInit, joinLog, hn], by simp [step, h1, joinLog, hn]⟩
      · cases hl
    | initializer => cases hl
    | ready => cases hl
    | indet => cases hl
  · cases hj

/-- **C71 fails.** `detach()` is undefined in every state: it destroys the thread attributes a second time, after the
context was reset. -/
theorem C71_detach_ub (s : Own.Thread.St) (i : Nat) : Own.Thread.step s (.detach i) = .ub := by
  simp only [step]
  split
  · rename_i o _
    obtain ⟨c, st⟩ := o
    cases c with
    | thr r =>
      have : detachLog s.log (.thr r) = .ub := by simp only [detachLog, attrDestroy]; split <;> rfl
      simp [this]
    | initializer => rfl
    | ready => rfl
    | indet => rfl
  · rfl

/-- **C71 fails.** Move construction is undefined in every state: the uninitialised context is inspected. -/
theorem C71_move_ctor_ub (s : Own.Thread.St) (i j : Nat) : Own.Thread.step s (.moveCtor i j) = .ub := by
  simp only [step, isInit]
  split <;> rfl

/-- **C71 fails.** When the thread of an idle object cannot be created, then — whatever is done to other objects — the
destructor is undefined (it joins an identifier that was never set). -/
theorem C71_failed_run_drop_ub {s s₁ s₂ : Own.Thread.St} {i : Nat} {e : Int} {st : Int} {os : List Own.Thread.Op}
    (hi : s.vars i = some ⟨.initializer, st⟩)
    (hj : Own.Thread.step s (.runFail i e) = .ok s₁) (ho : ∀ o ∈ os, ¬ o.touches i)
    (hs : runOps Own.Thread.step s₁ os = .ok s₂) :
    Own.Thread.step s₂ (.drop i) = .ub ∧ Own.Thread.step s₂ (.join i) = .ub := by
  simp only [step, hi, prepared, isInit, Res.ok.injEq] at hj
  subst hj
  have h1 : s₂.vars i = some ⟨.ready, -e⟩ := by rw [(others ho hs).1]; exact upd_self _ _ _
  exact ⟨by simp [step, h1, isInit, joinLog], by simp [step, h1, joinLog]⟩

/-- **C71 fails.** After a failed creation that was reported (`errno ≠ 0`), running the same object again does nothing at
all, even though the system could now create the thread. -/
theorem C71_failed_run_never_retried {s s₁ s₂ : Own.Thread.St} {i : Nat} {e : Int} {st : Int} {os : List Own.Thread.Op}
    (hi : s.vars i = some ⟨.initializer, st⟩) (he : e ≠ 0)
    (hj : Own.Thread.step s (.runFail i e) = .ok s₁) (ho : ∀ o ∈ os, ¬ o.touches i)
    (hs : runOps Own.Thread.step s₁ os = .ok s₂) : Own.Thread.step s₂ (.run i) = .ok s₂ := by
  simp only [step, hi, prepared, isInit, Res.ok.injEq] at hj
  subst hj
  have h1 : s₂.vars i = some ⟨.ready, -e⟩ := by rw [(others ho hs).1]; exact upd_self _ _ _
  have : ¬ (-e = 0) := by omega
  simp [step, h1, prepared, isInit, this]

/-- **C71 fails.** Running an object that already has a thread loses the first one: no continuation of the program ever
joins it. -/
theorem C71_run_twice_leaks {s s₁ s₂ : Own.Thread.St} {i r : Nat} {os : List Own.Thread.Op}
    (h : Reach Own.Thread.step Own.Thread.careful Own.Thread.init s) (hi : Own.Thread.owner s i = some r)
    (hr : Own.Thread.step s (.run i) = .ok s₁) (hs : runOps Own.Thread.step s₁ os = .ok s₂) :
    Live r s₂.log := by
  have hinv := reach_inv h
  obtain ⟨st, hv⟩ := owner_thr hi
  have hst : st = 0 := by
    rcases hinv.idle i _ hv with e | ⟨q, e⟩
    · cases e
    · injection e
  subst hst
  have hlive := hinv.ledger.ownedLive i r hi
  have hlt := hinv.fresh r hlive.1
  simp only [step, hv, prepared, isInit, if_true, Res.ok.injEq] at hr
  subst hr
  refine lost_forever (r := r) ⟨⟨List.mem_cons_of_mem _ hlive.1, by simpa using hlive.2⟩, Nat.lt_succ_of_lt hlt, ?_⟩ hs
  intro k st hk
  replace hk : upd s.vars i (some ⟨.thr s.next, 0⟩) k = some ⟨.thr r, st⟩ := hk
  by_cases hki : k = i
  · subst hki
    simp only [upd_self, Option.some.injEq, Obj.mk.injEq, Ctx.thr.injEq] at hk
    omega
  · rw [upd_ne _ _ hki] at hk
    exact hki (hinv.ledger.unique k i r (by simp [owner, hk, ctxThr]) hi)

/-- **C71 fails.** Assigning over an object that has a thread loses that thread: no continuation ever joins it. -/
theorem C71_assign_leaks {s s₁ s₂ : Own.Thread.St} {i j r : Nat} {os : List Own.Thread.Op}
    (h : Reach Own.Thread.step Own.Thread.careful Own.Thread.init s) (hi : Own.Thread.owner s i = some r)
    (hr : Own.Thread.step s (.moveAssign i j) = .ok s₁) (hs : runOps Own.Thread.step s₁ os = .ok s₂) :
    Live r s₂.log := by
  have hinv := reach_inv h
  have hlive := hinv.ledger.ownedLive i r hi
  have hlt := hinv.fresh r hlive.1
  simp only [step] at hr
  split at hr
  · rename_i u v hu hv
    split at hr <;> simp only [Res.ok.injEq, reduceCtorEq] at hr
    subst hr
    refine lost_forever (r := r) ?_ hs
    refine ⟨hlive, hlt, ?_⟩
    intro k st hk
    replace hk : upd (upd s.vars i (some v)) j (some ⟨.initializer, 0⟩) k = some ⟨.thr r, st⟩ := hk
    by_cases hkj : k = j
    · subst hkj; simp at hk
    · rw [upd_ne _ _ hkj] at hk
      by_cases hki : k = i
      · subst hki
        simp only [upd_self, Option.some.injEq] at hk
        subst hk
        exact hkj (hinv.ledger.unique k j r hi (by simp [owner, hv, ctxThr]))
      · rw [upd_ne _ _ hki] at hk
        exact hki (hinv.ledger.unique k i r (by simp [owner, hk, ctxThr]) hi)
  · cases hr

/-- **C71 fails.** After moving an object with a running thread onto another object, destroying the source leaves the thread
working on a destroyed object. -/
theorem C71_moved_thread_dangles {s s₁ s₂ : Own.Thread.St} {i j r : Nat}
    (h : Reach Own.Thread.step Own.Thread.careful Own.Thread.init s) (hj : Own.Thread.owner s j = some r)
    (hh : s.host r = j) (hm : Own.Thread.step s (.moveAssign i j) = .ok s₁)
    (hd : Own.Thread.step s₁ (.drop j) = .ok s₂) : r ∈ s₂.dangling := by
  have hinv := reach_inv h
  have hlive := hinv.ledger.ownedLive j r hj
  have hlt := hinv.fresh r hlive.1
  simp only [step] at hm
  split at hm
  · rename_i u v hu hv
    split at hm <;> simp only [Res.ok.injEq, reduceCtorEq] at hm
    subst hm
    simp only [step, upd_self, isInit, Res.ok.injEq] at hd
    subst hd
    refine List.mem_append_left _ ?_
    simp only [working, List.mem_filter, List.mem_range]
    exact ⟨hlt, decide_eq_true ⟨hh, hlive⟩⟩
  · cases hm

/-! ## The hypotheses are met -/

example : ∃ s, Reach Own.Thread.step Own.Thread.careful Own.Thread.init s ∧
    (s.log, (List.range 3).map s.vars) =
      ([.closed 1, .closed 0, .made 1, .made 0], List.replicate 3 none) :=
  Reach.witness [.create 0, .create 1, .run 0, .moveAssign 1 0, .run 0, .drop 1, .drop 0] _ _ (by decide)

example : ∃ s, Reach Own.Thread.step Own.Thread.stay Own.Thread.init s ∧ (s.log, s.dangling) =
    ([.closed 1, .closed 0, .made 1, .made 0], []) :=
  Reach.witness [.create 0, .create 1, .run 0, .run 1, .drop 0, .drop 1] _ _ (by decide)

/-- join, then the destructor -/
example : runOps Own.Thread.step Own.Thread.init [.create 0, .run 0, .join 0, .create 1, .drop 0] = .ub := by rfl
example : runOps Own.Thread.step Own.Thread.init [.create 0, .runFail 0 0, .drop 0] = .ub := by rfl
example : (match runOps Own.Thread.step Own.Thread.init [.create 0, .runFail 0 11, .run 0, .run 0] with
    | .ok s => some (s.next, s.vars 0) | _ => none) = some (0, some ⟨.ready, -11⟩) := by rfl
example : (match runOps Own.Thread.step Own.Thread.init [.create 0, .run 0, .run 0, .drop 0] with
    | .ok s => some s.log | _ => none) = some [.closed 1, .made 1, .made 0] := by decide
example : (match runOps Own.Thread.step Own.Thread.init [.create 0, .create 1, .run 0, .run 1, .moveAssign 0 1, .drop 0, .drop 1] with
    | .ok s => some (s.log, s.dangling) | _ => none) = some ([.closed 1, .made 1, .made 0], [0]) := by decide
example : (match runOps Own.Thread.step Own.Thread.init [.create 0, .create 1, .run 1, .moveAssign 0 1, .drop 1] with
    | .ok s => some s.dangling | _ => none) = some [0] := by decide

namespace Flame
open Own
example := C71_thread_partial (.visit ([.create 0, .create 1, .run 0, .moveAssign 1 0, .run 0] : List Own.Thread.Op) (by decide))
example := C71_object_outlives_thread_partial (.visit ([.create 0, .create 1, .run 0, .run 1, .drop 0] : List Own.Thread.Op) (by decide))
example := C71_join_then_drop_ub (s := visit Own.Thread.step Own.Thread.pre Own.Thread.init ([.create 0, .run 0] : List Own.Thread.Op)) (i := 0)
  (os := [.create 1, .run 1]) rfl (by intro o h; simp at h; rcases h with rfl | rfl <;> simp [Own.Thread.Op.touches]) rfl
example := C71_failed_run_drop_ub (s := visit Own.Thread.step Own.Thread.pre Own.Thread.init ([.create 0] : List Own.Thread.Op)) (i := 0)
  (e := 11) (st := 0) (os := [.create 1]) rfl rfl (by intro o h; simp at h; subst h; simp [Own.Thread.Op.touches]) rfl
example := C71_failed_run_never_retried (s := visit Own.Thread.step Own.Thread.pre Own.Thread.init ([.create 0] : List Own.Thread.Op)) (i := 0)
  (e := 11) (st := 0) (os := [.create 1]) rfl (by decide) rfl (by intro o h; simp at h; subst h; simp [Own.Thread.Op.touches]) rfl
example := C71_run_twice_leaks (.visit ([.create 0, .run 0] : List Own.Thread.Op) (by decide)) (i := 0) (r := 0) (os := [.drop 0]) (by decide) rfl rfl
example := C71_assign_leaks (.visit ([.create 0, .create 1, .run 0, .run 1] : List Own.Thread.Op) (by decide)) (i := 0) (j := 1) (r := 0)
  (os := [.drop 0, .drop 1]) (by decide) rfl rfl
end Flame

end Flame
