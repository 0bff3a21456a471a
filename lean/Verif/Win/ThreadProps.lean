import Verif.Win.Thread

/-! # C114: on Windows, every thread's handle is closed exactly once, and its object outlives its work -/

namespace Flame.WinThread
open Flame.Own

structure Inv (s : St) : Prop where
  ledger : Ledger (owner s) s.log
  fresh : ∀ r, .made r ∈ s.log → r < s.next
  defined : ∀ i o, s.vars i = some o → o.ctx ≠ .indet

theorem inv_init : Inv init := ⟨Ledger.init.congr (by intro i; rfl), by simp [init], by simp [init]⟩

theorem owner_upd (s : St) (i k : Nat) (o : Option Obj) :
    ((upd s.vars i o) k).bind (fun o => ctxThr o.ctx) = upd (owner s) i (o.bind fun o => ctxThr o.ctx) k := by
  by_cases hk : k = i
  · subst hk; simp
  · rw [upd_ne _ _ hk, upd_ne _ _ hk]; rfl

theorem fresh_log {s : St} (h : Inv s) : Ev.made s.next ∉ s.log ∧ Ev.closed s.next ∉ s.log :=
  have h1 : .made s.next ∉ s.log := fun hm => Nat.lt_irrefl _ (h.fresh _ hm)
  ⟨h1, fun hc => h1 (closed_made h.ledger.proper hc)⟩

/-- Replacing the contents of one variable. -/
theorem Inv.set {s : St} (h : Inv s) {i : Nat} {o : Option Obj} {log : List Ev} {d : List Nat}
    (hl : Ledger (upd (owner s) i (o.bind fun o => ctxThr o.ctx)) log)
    (hf : ∀ r, .made r ∈ log → .made r ∈ s.log) (hd : ∀ x, o = some x → x.ctx ≠ .indet) :
    Inv { s with vars := upd s.vars i o, log := log, dangling := d } := by
  refine ⟨hl.congr (fun k => owner_upd s i k o), fun r hr => h.fresh r (hf r hr), ?_⟩
  intro k x hk
  by_cases hki : k = i
  · subst hki; simp at hk; exact hd x hk
  · simp only [upd_ne _ _ hki] at hk; exact h.defined k x hk

theorem upd_same {α : Type} (f : Nat → α) (i : Nat) {a : α} (h : f i = a) : upd f i a = f := by
  funext k
  by_cases hk : k = i
  · subst hk; simp [h]
  · rw [upd_ne _ _ hk]

theorem owner_of {s : St} {i : Nat} {o : Obj} (hv : s.vars i = some o) : owner s i = ctxThr o.ctx := by simp [owner, hv]

/-- After closing what variable `i` is responsible for. -/
theorem Ledger.drop {s : St} (h : Inv s) {i : Nat} {o : Obj} (hv : s.vars i = some o) :
    ∃ log st, destroy s.log o.ctx = .ok (log, st) ∧ Ledger (upd (owner s) i none) log ∧
      (∀ r, .made r ∈ log → .made r ∈ s.log) ∧
      (log = match o.ctx with | .thr r => .closed r :: s.log | _ => s.log) ∧
      (st = match o.ctx with | .initializer => -1 | _ => 0) := by
  have ho := owner_of hv
  obtain ⟨c, st⟩ := o
  cases c with
  | initializer => exact ⟨_, _, rfl, by rw [upd_same _ _ (by simpa [ctxThr] using ho)]; exact h.ledger, fun _ hr => hr, rfl, rfl⟩
  | ready => exact ⟨_, _, rfl, by rw [upd_same _ _ (by simpa [ctxThr] using ho)]; exact h.ledger, fun _ hr => hr, rfl, rfl⟩
  | thr r =>
    have hl := h.ledger.ownedLive i r (by simpa [ctxThr] using ho)
    refine ⟨.closed r :: s.log, 0, by simp [destroy, hl], h.ledger.close (by simpa [ctxThr] using ho), ?_, rfl, rfl⟩
    intro q hq; simpa using hq
  | indet => exact absurd rfl (h.defined i _ hv)

theorem Ledger.wait {s : St} (h : Inv s) {i : Nat} {o : Obj} (hv : s.vars i = some o) :
    ∃ log st, join s.log o.ctx = .ok (log, st) ∧ Ledger (owner s) log ∧ (∀ r, .made r ∈ log → .made r ∈ s.log) ∧
      (log = match o.ctx with | .thr r => .used r :: s.log | _ => s.log) ∧
      (st = match o.ctx with | .thr _ => 0 | _ => (-6)) := by
  have ho := owner_of hv
  obtain ⟨c, st⟩ := o
  cases c with
  | initializer => exact ⟨_, _, rfl, h.ledger, fun _ hr => hr, rfl, rfl⟩
  | ready => exact ⟨_, _, rfl, h.ledger, fun _ hr => hr, rfl, rfl⟩
  | thr r =>
    have ho' : owner s i = some r := by simpa [ctxThr] using ho
    have hl := h.ledger.ownedLive i r ho'
    refine ⟨.used r :: s.log, 0, by simp [join, hl], h.ledger.use ho', ?_, rfl, rfl⟩
    intro q hq; simpa using hq
  | indet => exact absurd rfl (h.defined i _ hv)

theorem isInit_ok {c : Ctx} (h : c ≠ .indet) : isInit c = .ok (decide (c = .initializer)) := by
  cases c <;> first | rfl | exact absurd rfl h

theorem prepared_ok {o : Obj} (h : o.ctx ≠ .indet) :
    prepared o = .ok (if o.ctx = .initializer then some ⟨.ready, 0⟩ else if o.status = 0 then some o else none) := by
  unfold prepared
  rw [isInit_ok h]
  by_cases e : o.ctx = .initializer
  · simp [e]
  · by_cases e2 : o.status = 0 <;> simp [e, e2]

theorem step_ok {s : St} (h : Inv s) {o : Op} (hp : careful s o) : ∃ s', step s o = .ok s' ∧ Inv s' := by
  obtain ⟨hp, hc⟩ := hp
  cases o with
  | moveCtor i j => exact absurd hc id
  | create i =>
    simp only [pre] at hp
    refine ⟨{ s with vars := upd s.vars i (some ⟨.initializer, 0⟩) }, by simp [step, hp], ?_⟩
    refine h.set (log := s.log) (d := s.dangling) ?_ (fun _ hr => hr) (by rintro x e; injection e with e; subst e; simp)
    rw [upd_same _ _ (by simp [owner, hp, ctxThr])]; exact h.ledger
  | moveAssign i j =>
    obtain ⟨hi, hj⟩ := hp
    obtain ⟨u, hu⟩ := Option.ne_none_iff_exists'.mp hi
    obtain ⟨v, hv⟩ := Option.ne_none_iff_exists'.mp hj
    obtain ⟨log, st, hd, hl, hm, hlog, -⟩ := Ledger.drop h hu
    have hstep : step s (.moveAssign i j) =
        .ok { s with vars := upd (upd s.vars i (some v)) j (some ⟨.initializer, 0⟩), log := log } := by
      simp only [step, hu, hv, isInit_ok (h.defined i u hu)]
      by_cases e : u.ctx = .initializer
      · rw [e] at hlog; simp at hlog; subst hlog; simp [e]
      · simp [e, hd]
    refine ⟨_, hstep, ?_, fun r hr => h.fresh r (hm r hr), ?_⟩
    · -- close the target's handle, then move
      have key : Ledger (upd (upd (upd (owner s) i none) i (upd (owner s) i none j)) j none) log := by
        by_cases hij : i = j
        · subst hij
          have : upd (upd (upd (owner s) i none) i (upd (owner s) i none i)) i none = upd (owner s) i none := by
            funext k; by_cases hk : k = i <;> simp [upd, hk]
          rw [this]; exact hl
        · exact hl.move (by simp) hij
      refine key.congr ?_
      intro k
      show ((upd (upd s.vars i (some v)) j (some ⟨.initializer, 0⟩)) k).bind (fun o => ctxThr o.ctx) = _
      by_cases hkj : k = j
      · subst hkj; simp [ctxThr]
      · rw [upd_ne _ _ hkj, upd_ne _ _ hkj]
        by_cases hki : k = i
        · subst hki
          have : j ≠ k := fun e => hkj e.symm
          simp only [upd_self, upd_ne _ _ this, owner_of hv, Option.bind_some]
        · rw [upd_ne _ _ hki, upd_ne _ _ hki, upd_ne _ _ hki]; rfl
    · intro k x hk
      by_cases hkj : k = j
      · subst hkj; simp at hk; subst hk; simp
      · simp only [upd_ne _ _ hkj] at hk
        by_cases hki : k = i
        · subst hki; simp only [upd_self, Option.some.injEq] at hk; subst hk; exact h.defined j _ hv
        · rw [upd_ne _ _ hki] at hk; exact h.defined k x hk
  | run i =>
    obtain ⟨o, ho⟩ := Option.ne_none_iff_exists'.mp (show s.vars i ≠ none from hp)
    have hpr := prepared_ok (h.defined i o ho)
    cases hq : (if o.ctx = .initializer then some ⟨.ready, 0⟩ else if o.status = 0 then some o else none : Option Obj) with
    | none => rw [hq] at hpr; exact ⟨s, by simp [step, ho, hpr], h⟩
    | some w =>
      rw [hq] at hpr
      refine ⟨{ s with vars := upd s.vars i (some ⟨.thr s.next, 0⟩), next := s.next + 1,
                       log := .made s.next :: s.log, host := upd s.host s.next i }, by simp [step, ho, hpr], ?_, ?_, ?_⟩
      · refine (h.ledger.make (i := i) hc (fresh_log h).1 (fresh_log h).2).congr ?_
        intro k
        exact owner_upd s i k _
      · intro r hr
        rcases List.mem_cons.mp hr with e | e
        · injection e with e; subst e; exact Nat.lt_succ_self _
        · exact Nat.lt_succ_of_lt (h.fresh r e)
      · intro k x hk
        by_cases hki : k = i
        · subst hki; simp at hk; subst hk; simp
        · simp only [upd_ne _ _ hki] at hk; exact h.defined k x hk
  | runFail i e =>
    obtain ⟨o, ho⟩ := Option.ne_none_iff_exists'.mp (show s.vars i ≠ none from hp)
    have hpr := prepared_ok (h.defined i o ho)
    cases hq : (if o.ctx = .initializer then some ⟨.ready, 0⟩ else if o.status = 0 then some o else none : Option Obj) with
    | none => rw [hq] at hpr; exact ⟨s, by simp [step, ho, hpr], h⟩
    | some w =>
      rw [hq] at hpr
      refine ⟨{ s with vars := upd s.vars i (some ⟨.ready, -(e : Int)⟩) }, by simp [step, ho, hpr], ?_⟩
      refine h.set (log := s.log) (d := s.dangling) ?_ (fun _ hr => hr) (by rintro x e; injection e with e; subst e; simp)
      rw [upd_same _ _ (by simpa [ctxThr] using hc)]; exact h.ledger
  | join i =>
    obtain ⟨o, ho⟩ := Option.ne_none_iff_exists'.mp (show s.vars i ≠ none from hp)
    obtain ⟨log, st, hj, hl, hm, -, -⟩ := Ledger.wait h ho
    refine ⟨{ s with vars := upd s.vars i (some ⟨o.ctx, st⟩), log := log }, by simp [step, ho, hj], ?_⟩
    refine h.set (d := s.dangling) ?_ hm (by rintro x e; injection e with e; subst e; exact h.defined i o ho)
    rw [upd_same _ _ (by simp [owner_of ho])]; exact hl
  | detach i =>
    obtain ⟨o, ho⟩ := Option.ne_none_iff_exists'.mp (show s.vars i ≠ none from hp)
    obtain ⟨log, st, hd, hl, hm, hlog, hst⟩ := Ledger.drop h ho
    by_cases e : st = 0
    · refine ⟨{ s with vars := upd s.vars i (some ⟨.initializer, 0⟩), log := log }, by simp [step, ho, detach, hd, e], ?_⟩
      exact h.set (d := s.dangling) (by simpa [ctxThr] using hl) hm (by rintro x e; injection e with e; subst e; simp)
    · refine ⟨{ s with vars := upd s.vars i (some ⟨o.ctx, st⟩), log := log }, by simp [step, ho, detach, hd, e], ?_⟩
      refine h.set (d := s.dangling) ?_ hm (by rintro x e; injection e with e; subst e; exact h.defined i o ho)
      have hci : o.ctx = .initializer := by
        cases hcc : o.ctx <;> simp [hcc] at hst <;> first | rfl | exact absurd hst e
      simpa [hci, ctxThr] using hl
  | drop i =>
    obtain ⟨o, ho⟩ := Option.ne_none_iff_exists'.mp (show s.vars i ≠ none from hp)
    obtain ⟨log, st, hj, hl, hm, hlog, -⟩ := Ledger.wait h ho
    have h' : Inv { s with log := log } := ⟨hl, fun r hr => h.fresh r (hm r hr), h.defined⟩
    obtain ⟨log', st', hd, hl', hm', hlog', -⟩ := Ledger.drop h' (i := i) ho
    simp only at hd hl' hm' hlog'
    have hstep : step s (.drop i) = .ok
        ⟨upd s.vars i none, s.next, log', s.host, working s.host s.next i log' ++ s.dangling⟩ := by
      simp only [step, ho, isInit_ok (h.defined i o ho)]
      by_cases e : o.ctx = .initializer
      · rw [e] at hlog hlog'; simp at hlog hlog'; subst hlog'; subst hlog; simp [e]
      · simp [e, hj, hd]
    refine ⟨_, hstep, ?_⟩
    exact h.set (o := none) (show Ledger (upd (owner s) i none) log' from hl') (fun r hr => hm r (hm' r hr)) (by simp)

theorem reach_inv {s : St} (h : Reach step careful init s) : Inv s :=
  h.inv inv_init (fun s o s' hi hp he => by
    obtain ⟨u, hu, hinv⟩ := step_ok hi hp
    rw [he] at hu
    injection hu with hu
    subst hu
    exact hinv)

/-- C114 (partial: no move construction, no `run` of an object that has a thread): over every history of starting,
joining (any number of times), detaching, moving (also onto itself or onto an object with a thread) and destroying
thread objects, no call is undefined, every handle is closed at most once and used only while open, and none is lost:
when no object is left each handle has been closed exactly once. -/
theorem C114_handles_partial {s : St} (h : Reach step careful init s) :
    Ledger (owner s) s.log ∧ ((∀ i, s.vars i = none) → ReleasedOnce s.log) ∧
      ∀ o, careful s o → ∃ s', step s o = .ok s' := by
  have hi := reach_inv h
  refine ⟨hi.ledger, fun hv => hi.ledger.releasedOnce fun i => by simp [owner, hv], fun o ho => ?_⟩
  obtain ⟨s', hs, _⟩ := step_ok hi ho
  exact ⟨s', hs⟩

example : ∃ s, Reach step careful init s ∧ (s.log, owner s 0, owner s 1) = ([.closed 0, .made 1, .used 0, .made 0], some 1, none) :=
  Reach.witness (step := step) (pre := careful) (s₀ := init)
    [.create 0, .create 1, .run 0, .join 0, .run 1, .moveAssign 0 1] (fun s => (s.log, owner s 0, owner s 1)) _ (by decide)

/-- C114 (violated): running an object that already has a thread (joined or not) loses the first handle: it stays
open and no object is responsible for it. -/
theorem C114_rerun_violated {s s' : St} (h : Reach step careful init s) {i r : Nat}
    (hv : s.vars i = some ⟨.thr r, 0⟩) (hs : step s (.run i) = .ok s') :
    Live r s'.log ∧ ∀ k, owner s' k ≠ some r := by
  have hi := reach_inv h
  have ho : owner s i = some r := by simp [owner, hv, ctxThr]
  have hl := hi.ledger.ownedLive i r ho
  simp [step, hv, prepared, isInit] at hs
  subst hs
  refine ⟨⟨by simp [hl.1], by simp [hl.2]⟩, ?_⟩
  intro k hk
  replace hk := (owner_upd s i k _).symm.trans hk
  by_cases hki : k = i
  · subst hki
    simp [ctxThr] at hk
    subst hk
    exact Nat.lt_irrefl _ (hi.fresh _ hl.1)
  · rw [upd_ne _ _ hki] at hk
    exact hki (hi.ledger.unique k i r hk ho)

example : ∃ s, Reach step careful init s ∧ s.vars 0 = some ⟨.thr 0, 0⟩ :=
  Reach.witness (step := step) (pre := careful) (s₀ := init) [.create 0, .run 0, .join 0] (fun s => s.vars 0) _ (by decide)

/-- C114 (violated): move construction inspects a context that was never written. -/
theorem C114_move_ctor_ub (s : St) (i j : Nat) : step s (.moveCtor i j) = .ub := by
  simp only [step, isInit]
  split <;> rfl

/-- C114: what a call reports: joining an object without a thread, and detaching one that never ran, fail with a
status and change nothing else. -/
theorem C114_status {s s' : St} {i : Nat} {st : Int} (hv : s.vars i = some ⟨.initializer, st⟩) :
    (step s (.join i) = .ok s' → s'.vars i = some ⟨.initializer, -6⟩ ∧ s'.log = s.log) ∧
    (step s (.detach i) = .ok s' → s'.vars i = some ⟨.initializer, -1⟩ ∧ s'.log = s.log) := by
  refine ⟨fun hs => ?_, fun hs => ?_⟩
  · simp [step, hv, join] at hs; subst hs; simp [INVALID_HANDLE]
  · simp [step, hv, detach, destroy] at hs; subst hs; simp

example : ∃ s, Reach step careful init s ∧ s.vars 0 = some ⟨.initializer, 0⟩ :=
  Reach.witness (step := step) (pre := careful) (s₀ := init) [.create 0] (fun s => s.vars 0) _ (by decide)

/-- C114: a start that failed leaves nothing behind, and can be told from the status; running the object again does
nothing until it is detached. -/
theorem C114_failed_start {s s' : St} {i e : Nat} (he : 0 < e) (hv : s.vars i = some ⟨.initializer, 0⟩)
    (hs : step s (.runFail i e) = .ok s') :
    s'.log = s.log ∧ s'.vars i = some ⟨.ready, -(e : Int)⟩ ∧ step s' (.run i) = .ok s' ∧
      ∃ s'', step s' (.detach i) = .ok s'' ∧ s''.vars i = some ⟨.initializer, 0⟩ ∧ s''.log = s.log := by
  simp [step, hv, prepared, isInit] at hs
  subst hs
  have : ¬ (-(e : Int) = 0) := by omega
  refine ⟨rfl, by simp, ?_, ?_⟩
  · simp [step, prepared, isInit, Nat.ne_of_gt he]
  · simp [step, detach, destroy]

/-! ## The object outlives the work -/

/-- Threads stay with their objects, and those whose object does not own them have been waited for. -/
structure Home (s : St) : Prop where
  host : ∀ i r, owner s i = some r → s.host r = i
  ended : ∀ r, r < s.next → (∀ i, owner s i ≠ some r) → .used r ∈ s.log
  clean : s.dangling = []

theorem stay_careful {s : St} (h : Reach step stay init s) : Reach step careful init s := by
  induction h with
  | start => exact .start
  | step _ hp he ih => exact .step ih hp.1 he

theorem Home.set {s : St} (hh : Home s) {i : Nat} {o : Option Obj} {log : List Ev} {d : List Nat}
    (ho : (o.bind fun o => ctxThr o.ctx) = owner s i ∨
      (o.bind fun o => ctxThr o.ctx) = none ∧ ∀ r, owner s i = some r → .used r ∈ log)
    (hl : ∀ r, .used r ∈ s.log → .used r ∈ log) (hd : d = []) :
    Home { s with vars := upd s.vars i o, log := log, dangling := d } := by
  have hown : ∀ k, owner { s with vars := upd s.vars i o, log := log, dangling := d } k =
      upd (owner s) i (o.bind fun o => ctxThr o.ctx) k := fun k => owner_upd s i k o
  refine ⟨?_, ?_, hd⟩
  · intro k r hk
    rw [hown] at hk
    by_cases hki : k = i
    · subst hki
      simp only [upd_self] at hk
      rcases ho with ho | ho
      · exact hh.host k r (ho ▸ hk)
      · rw [ho.1] at hk; cases hk
    · rw [upd_ne _ _ hki] at hk; exact hh.host k r hk
  · intro r hr hn
    by_cases hsome : ∃ k, owner s k = some r
    · obtain ⟨k, hk⟩ := hsome
      by_cases hki : k = i
      · subst hki
        rcases ho with ho | ho
        · exact absurd (by rw [hown, upd_self, ho]; exact hk) (hn k)
        · exact ho.2 r hk
      · exact absurd (by rw [hown, upd_ne _ _ hki]; exact hk) (hn k)
    · exact hl r (hh.ended r hr fun k hk => hsome ⟨k, hk⟩)

theorem home_step {s s' : St} {o : Op} (h : Inv s) (hh : Home s) (hp : stay s o) (he : step s o = .ok s') :
    Home s' := by
  obtain ⟨⟨hp, hc⟩, hs⟩ := hp
  cases o with
  | moveCtor i j => exact absurd hc id
  | create i =>
    simp only [pre] at hp
    simp only [step, hp, Res.ok.injEq] at he
    subst he
    exact hh.set (log := s.log) (d := s.dangling) (.inl (by simp [owner, hp, ctxThr])) (fun _ hr => hr) hh.clean
  | moveAssign i j =>
    obtain ⟨hi, hj⟩ := hp
    obtain ⟨u, hu⟩ := Option.ne_none_iff_exists'.mp hi
    obtain ⟨v, hv⟩ := Option.ne_none_iff_exists'.mp hj
    have hlog : s'.log = s.log ∧ s'.vars = upd (upd s.vars i (some v)) j (some ⟨.initializer, 0⟩) ∧
        s'.next = s.next ∧ s'.host = s.host ∧ s'.dangling = s.dangling := by
      have hui := owner_of hu
      rw [hs.1] at hui
      obtain ⟨c, st⟩ := u
      cases c with
      | initializer => simp [step, hu, hv, isInit] at he; subst he; simp
      | ready => simp [step, hu, hv, isInit, destroy] at he; subst he; simp
      | thr r => simp [ctxThr] at hui
      | indet => exact absurd rfl (h.defined i _ hu)
    have hown : ∀ k, owner s' k = owner s k := by
      intro k
      unfold owner
      rw [hlog.2.1]
      by_cases hkj : k = j
      · subst hkj; simp only [upd_self]; have := hs.2; unfold owner at this; rw [this]; rfl
      · rw [upd_ne _ _ hkj]
        by_cases hki : k = i
        · subst hki
          simp only [upd_self]
          have h1 := hs.1; unfold owner at h1; rw [h1]
          have h2 := hs.2; rw [owner_of hv] at h2
          simpa using h2
        · rw [upd_ne _ _ hki]
    refine ⟨?_, ?_, by rw [hlog.2.2.2.2]; exact hh.clean⟩
    · intro k r hk; rw [hown] at hk; rw [hlog.2.2.2.1]; exact hh.host k r hk
    · intro r hr hn
      rw [hlog.1]
      rw [hlog.2.2.1] at hr
      exact hh.ended r hr fun k hk => hn k (by rw [hown]; exact hk)
  | run i =>
    obtain ⟨o, ho⟩ := Option.ne_none_iff_exists'.mp (show s.vars i ≠ none from hp)
    have hpr := prepared_ok (h.defined i o ho)
    cases hq : (if o.ctx = .initializer then some ⟨.ready, 0⟩ else if o.status = 0 then some o else none : Option Obj) with
    | none =>
      rw [hq] at hpr
      simp only [step, ho, hpr, Res.ok.injEq] at he
      subst he; exact hh
    | some w =>
      rw [hq] at hpr
      simp only [step, ho, hpr, Res.ok.injEq] at he
      subst he
      refine ⟨?_, ?_, hh.clean⟩
      · intro k r hk
        replace hk := (owner_upd s i k _).symm.trans hk
        by_cases hki : k = i
        · subst hki
          simp [ctxThr] at hk
          subst hk
          simp
        · rw [upd_ne _ _ hki] at hk
          have : r ≠ s.next := by
            intro e; subst e
            exact Nat.lt_irrefl _ (h.fresh _ (h.ledger.ownedLive k _ hk).1)
          show upd s.host s.next i r = k
          rw [upd_ne _ _ this]
          exact hh.host k r hk
      · intro r hr hn
        have hrn : r ≠ s.next := by
          intro e
          refine hn i ?_
          refine (owner_upd s i i _).trans ?_
          simp [ctxThr, e]
        have hold : ∀ k, owner s k ≠ some r := by
          intro k hk
          by_cases hki : k = i
          · subst hki; rw [hc] at hk; cases hk
          · refine hn k ?_
            refine (owner_upd s i k _).trans ?_
            rw [upd_ne _ _ hki]; exact hk
        have : r < s.next := by
          have hr' : r < s.next + 1 := hr
          omega
        exact List.mem_cons_of_mem _ (hh.ended r this hold)
  | runFail i e =>
    obtain ⟨o, ho⟩ := Option.ne_none_iff_exists'.mp (show s.vars i ≠ none from hp)
    have hpr := prepared_ok (h.defined i o ho)
    cases hq : (if o.ctx = .initializer then some ⟨.ready, 0⟩ else if o.status = 0 then some o else none : Option Obj) with
    | none =>
      rw [hq] at hpr
      simp only [step, ho, hpr, Res.ok.injEq] at he
      subst he; exact hh
    | some w =>
      rw [hq] at hpr
      simp only [step, ho, hpr, Res.ok.injEq] at he
      subst he
      exact hh.set (log := s.log) (d := s.dangling) (.inl (by simpa [ctxThr] using hc.symm)) (fun _ hr => hr) hh.clean
  | join i =>
    obtain ⟨o, ho⟩ := Option.ne_none_iff_exists'.mp (show s.vars i ≠ none from hp)
    obtain ⟨log, st, hj, -, -, hlog, -⟩ := Ledger.wait h ho
    simp only [step, ho, hj, Res.ok.injEq] at he
    subst he
    refine hh.set (d := s.dangling) (.inl (by simp [owner_of ho])) (fun r hr => ?_) hh.clean
    rw [hlog]; split <;> simp [hr]
  | detach i =>
    obtain ⟨o, ho⟩ := Option.ne_none_iff_exists'.mp (show s.vars i ≠ none from hp)
    obtain ⟨log, st, hd, -, -, hlog, hst⟩ := Ledger.drop h ho
    have hct : ctxThr o.ctx = none := by rw [← owner_of ho]; exact hs
    have hlog' : log = s.log := by
      rw [hlog]
      cases hcc : o.ctx <;> first | rfl | (rw [hcc] at hct; cases hct)
    subst hlog'
    by_cases e : st = 0
    · simp [step, ho, detach, hd, e] at he
      subst he
      exact hh.set (d := s.dangling) (.inl (by simpa [ctxThr] using hs.symm)) (fun _ hr => hr) hh.clean
    · simp [step, ho, detach, hd, e] at he
      subst he
      exact hh.set (d := s.dangling) (.inl (by simp [owner_of ho])) (fun _ hr => hr) hh.clean
  | drop i =>
    obtain ⟨o, ho⟩ := Option.ne_none_iff_exists'.mp (show s.vars i ≠ none from hp)
    obtain ⟨log, st, hj, hl, hm, hlog, -⟩ := Ledger.wait h ho
    have h' : Inv { s with log := log } := ⟨hl, fun r hr => h.fresh r (hm r hr), h.defined⟩
    obtain ⟨log', st', hd, hl', hm', hlog', -⟩ := Ledger.drop h' (i := i) ho
    simp only at hd hl' hm' hlog'
    have hstep : step s (.drop i) = .ok
        ⟨upd s.vars i none, s.next, log', s.host, working s.host s.next i log' ++ s.dangling⟩ := by
      simp only [step, ho, isInit_ok (h.defined i o ho)]
      by_cases e : o.ctx = .initializer
      · rw [e] at hlog hlog'; simp at hlog hlog'; subst hlog'; subst hlog; simp [e]
      · simp [e, hj, hd]
    rw [hstep, Res.ok.injEq] at he
    subst he
    have hused : ∀ r, .used r ∈ s.log → .used r ∈ log' := by
      intro r hr
      rw [hlog', hlog]
      cases o.ctx <;> simp [hr]
    have hmine : ∀ r, owner s i = some r → .used r ∈ log' := by
      intro r hr
      rw [owner_of ho] at hr
      cases hcc : o.ctx <;> rw [hcc] at hr <;> simp [ctxThr] at hr
      subst hr
      rw [hlog', hlog, hcc]; simp
    refine hh.set (.inr ⟨rfl, hmine⟩) hused ?_
    rw [hh.clean, List.append_nil]
    unfold working
    rw [List.filter_eq_nil_iff]
    intro r hr hd
    obtain ⟨h1, h2⟩ := of_decide_eq_true hd
    apply h2
    by_cases hsome : ∃ k, owner s k = some r
    · obtain ⟨k, hk⟩ := hsome
      have : k = i := (hh.host k r hk).symm.trans h1
      subst this
      exact hmine r hk
    · exact hused r (hh.ended r (List.mem_range.mp hr) fun k hk => hsome ⟨k, hk⟩)

theorem reach_home {s : St} (h : Reach step stay init s) : Home s := by
  induction h with
  | start => exact ⟨by simp [owner, init], by simp [init], rfl⟩
  | step hr hp he ih => exact home_step (reach_inv (stay_careful hr)) ih hp he

/-- C114 (partial: in addition, threads are not detached, and objects with a thread are neither moved nor assigned to):
no object is destroyed before the threads working on it have ended. -/
theorem C114_outlives_partial {s : St} (h : Reach step stay init s) : s.dangling = [] := (reach_home h).clean

example : ∃ s, Reach step stay init s ∧ (s.log, s.vars 0) = ([.closed 0, .used 0, .used 0, .made 0], none) :=
  Reach.witness (step := step) (pre := stay) (s₀ := init) [.create 0, .run 0, .join 0, .drop 0] (fun s => (s.log, s.vars 0)) _ (by decide)

/-- C114 (violated): moving the object of a running thread leaves the thread working on the old object, whose
destructor does not wait for it. -/
theorem C114_move_violated : ∃ s, Reach step careful init s ∧ s.dangling = [0] :=
  Reach.witness (step := step) (pre := careful) (s₀ := init) [.create 0, .create 1, .run 0, .moveAssign 1 0, .drop 0]
    (fun s => s.dangling) _ (by decide)

/-- C114 (violated): so does detaching: a detached thread still works on the object it was started from. -/
theorem C114_detach_violated : ∃ s, Reach step careful init s ∧ s.dangling = [0] :=
  Reach.witness (step := step) (pre := careful) (s₀ := init) [.create 0, .run 0, .detach 0, .drop 0]
    (fun s => s.dangling) _ (by decide)

theorem working_mem {s : St} (h : Inv s) {i : Nat} {o : Obj} {r : Nat} {log : List Ev} (ho : s.vars i = some o)
    (hc : o.ctx = .thr r) (hh : s.host r = i) (hu : .used r ∉ log) : r ∈ working s.host s.next i log := by
  have hlive := h.ledger.ownedLive i r (by simp [owner_of ho, hc, ctxThr])
  simp [working, hh, hu, h.fresh r hlive.1]

theorem drop_initializer {s : St} {i : Nat} {t : Int} (ho : s.vars i = some ⟨.initializer, t⟩) {r : Nat}
    (hr : r ∈ working s.host s.next i s.log) : ∃ s₂, step s (.drop i) = .ok s₂ ∧ r ∈ s₂.dangling := by
  refine ⟨{ s with vars := upd s.vars i none, dangling := working s.host s.next i s.log ++ s.dangling }, ?_, ?_⟩
  · simp [step, ho, isInit]
  · exact List.mem_append_left _ hr

/-- C114 (violated in general): whenever a thread has not been waited for and its object still holds it, moving the
object away and destroying it leaves the thread working on a destroyed object, whatever the target of the move was. -/
theorem C114_move_dangles {s : St} (h : Reach step careful init s) {i j : Nat} {o u : Obj} {r : Nat}
    (ho : s.vars i = some o) (hu : s.vars j = some u) (hc : o.ctx = .thr r) (hh : s.host r = i)
    (hn : .used r ∉ s.log) :
    ∃ s₁, step s (.moveAssign j i) = .ok s₁ ∧ ∃ s₂, step s₁ (.drop i) = .ok s₂ ∧ r ∈ s₂.dangling := by
  have hi := reach_inv h
  obtain ⟨log, st, hd, -, -, hlog, -⟩ := Ledger.drop hi hu
  have hn' : .used r ∉ log := by
    rw [hlog]; cases u.ctx <;> simp [hn]
  by_cases e : u.ctx = .initializer
  · refine ⟨{ s with vars := upd (upd s.vars j (some o)) i (some ⟨.initializer, 0⟩) }, ?_, ?_⟩
    · simp [step, ho, hu, e, isInit]
    · exact drop_initializer (t := 0) (by simp) (working_mem hi ho hc hh hn)
  · refine ⟨{ s with vars := upd (upd s.vars j (some o)) i (some ⟨.initializer, 0⟩), log := log }, ?_, ?_⟩
    · simp [step, ho, hu, isInit_ok (hi.defined j u hu), e, hd]
    · exact drop_initializer (t := 0) (by simp) (working_mem hi ho hc hh hn')

/-- C114 (violated in general): so does detaching the thread and destroying the object. -/
theorem C114_detach_dangles {s : St} (h : Reach step careful init s) {i : Nat} {o : Obj} {r : Nat}
    (ho : s.vars i = some o) (hc : o.ctx = .thr r) (hh : s.host r = i) (hn : .used r ∉ s.log) :
    ∃ s₁, step s (.detach i) = .ok s₁ ∧ ∃ s₂, step s₁ (.drop i) = .ok s₂ ∧ r ∈ s₂.dangling := by
  have hi := reach_inv h
  have hlive := hi.ledger.ownedLive i r (by simp [owner_of ho, hc, ctxThr])
  refine ⟨{ s with vars := upd s.vars i (some ⟨.initializer, 0⟩), log := .closed r :: s.log }, ?_, ?_⟩
  · simp [step, ho, detach, destroy, hc, hlive]
  · exact drop_initializer (t := 0) (by simp) (working_mem (log := .closed r :: s.log) hi ho hc hh (by simp [hn]))

-- a reachable state with a thread nobody has waited for, and a second object
example : ∃ s, Reach step careful init s ∧ (s.log, s.vars 0, s.vars 1, s.host 0) =
    ([.made 0], some ⟨.thr 0, 0⟩, some ⟨.initializer, 0⟩, 0) :=
  Reach.witness (step := step) (pre := careful) (s₀ := init) [.create 0, .create 1, .run 0]
    (fun s => (s.log, s.vars 0, s.vars 1, s.host 0)) _ (by decide)

namespace Flame.WinThread
open Own
example := C114_failed_start (s := visit step careful init [.create 0]) (i := 0) (e := 8) (by decide) rfl rfl
example := C114_move_dangles (.visit ([.create 0, .create 1, .run 0] : List Op) (by decide)) (i := 0) (j := 1) (r := 0) rfl rfl rfl (by decide) (by decide)
end Flame.WinThread

end Flame.WinThread
