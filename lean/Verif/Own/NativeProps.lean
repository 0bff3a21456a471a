import Verif.Own.Native

/-! # C43 and C44: libraries and native synchronisation objects are released exactly once -/

namespace Flame.Own

/-- What belongs to one variable goes to another that owns nothing (which may be the same one). -/
theorem Ledger.moveInto {own : Nat → Option Nat} {l : List Ev} (h : Ledger own l) {i j : Nat} (hi : own i = none) :
    Ledger (upd (upd own i (own j)) j none) l := by
  by_cases hij : i = j
  · subst hij
    refine h.congr fun k => ?_
    by_cases hk : k = i
    · subst hk; rw [upd_self, hi]
    · rw [upd_ne _ _ hk, upd_ne _ _ hk]
  · exact h.move hi hij

end Flame.Own

namespace Flame.Own.Native

structure Inv (s : St) : Prop where
  ledger : Ledger (owner s) s.log
  fresh : ∀ r, .made r ∈ s.log → r < s.next
  noIndet : ∀ i, s.vars i ≠ some .indet

theorem inv_init : Inv init := ⟨Ledger.init.congr (by intro i; rfl), by simp [init], by simp [init]⟩

theorem moved_owner {s : St} {i j : Nat} {v : Ctx} (hj : s.vars j = some v) (k : Nat) :
    ((upd (upd s.vars i (some v)) j (some Ctx.initializer)) k).bind ctxObj =
      upd (upd (owner s) i (owner s j)) j none k := by
  by_cases hkj : k = j
  · subst hkj; simp [ctxObj]
  · rw [upd_ne _ _ hkj, upd_ne _ _ hkj]
    by_cases hki : k = i
    · subst hki; simp [owner, hj]
    · rw [upd_ne _ _ hki, upd_ne _ _ hki]; rfl

theorem moved_indet {s : St} (h : Inv s) {i j : Nat} {v : Ctx} (hj : s.vars j = some v) (k : Nat) :
    (upd (upd s.vars i (some v)) j (some Ctx.initializer)) k ≠ some .indet := by
  by_cases hkj : k = j
  · subst hkj; simp
  · rw [upd_ne _ _ hkj]
    by_cases hki : k = i
    · subst hki; rw [upd_self, ← hj]; exact h.noIndet j
    · rw [upd_ne _ _ hki]; exact h.noIndet k

/-- A context that is not indeterminate and not the initializer is released by the destructor (and by the
assignment operator of `Mutex` and `Spin`). -/
theorem drop_ok {s : St} (h : Inv s) {looks : Nat → Bool} (hl : ∀ r, looks r = false) {i : Nat} {v : Ctx}
    (hv : s.vars i = some v) :
    ∃ log, dropLog looks s.log v = .ok log ∧ Ledger (upd (owner s) i none) log ∧
      (∀ r, .made r ∈ log → .made r ∈ s.log) := by
  cases v with
  | indet => exact absurd hv (h.noIndet i)
  | initializer =>
    refine ⟨s.log, by simp [dropLog, isInit], h.ledger.congr ?_, fun _ hr => hr⟩
    intro k
    by_cases hk : k = i
    · subst hk; simp [owner, hv, ctxObj]
    · rw [upd_ne _ _ hk]
  | obj r =>
    have ho : owner s i = some r := by simp [owner, hv, ctxObj]
    refine ⟨.closed r :: s.log, by simp [dropLog, isInit, hl r, destroy, h.ledger.ownedLive i r ho],
      h.ledger.close ho, ?_⟩
    intro q hq
    simpa using hq

theorem step_ok {looks : Nat → Bool} (hl : ∀ r, looks r = false) {c : Cls} {s : St} (h : Inv s) {o : Op}
    (hp : careful c s o) : ∃ s', step looks c s o = .ok s' ∧ Inv s' := by
  obtain ⟨hp, hcare⟩ := hp
  cases o with
  | create i =>
    simp only [pre] at hp
    have h1 : .made s.next ∉ s.log := fun hm => Nat.lt_irrefl _ (h.fresh _ hm)
    have h2 : .closed s.next ∉ s.log := fun hc => h1 (closed_made h.ledger.proper hc)
    refine ⟨_, by simp [step, hp]; rfl, ?_, ?_, ?_⟩
    · refine (h.ledger.make (i := i) (by simp [owner, hp]) h1 h2).congr ?_
      intro k
      by_cases hk : k = i
      · subst hk; simp [owner, ctxObj]
      · simp [owner, upd_ne _ _ hk]
    · intro r hr
      rcases List.mem_cons.mp hr with e | e
      · injection e with e; subst e; exact Nat.lt_succ_self _
      · exact Nat.lt_succ_of_lt (h.fresh r e)
    · intro k
      by_cases hk : k = i
      · subst hk; simp
      · simp only [upd_ne _ _ hk]; exact h.noIndet k
  | moveCtor i j =>
    cases c with
    | mutex => exact absurd hcare id
    | spin => exact absurd hcare id
    | semaphore =>
      obtain ⟨hi, hj⟩ := hp
      obtain ⟨v, hv⟩ := Option.ne_none_iff_exists'.mp hj
      have hij : i ≠ j := by intro e; subst e; exact hj hi
      refine ⟨{ s with vars := upd (upd s.vars i (some v)) j (some .initializer), log := .closedNothing :: s.log },
        by simp [step, hi, hv, assignLog, startCtx, isInit, destroy], ?_, ?_, moved_indet h hv⟩
      · exact (h.ledger.nothing.move (i := i) (j := j) (by simp [owner, hi]) hij).congr (moved_owner hv)
      · intro r hr; exact h.fresh r (by simpa using hr)
  | moveAssign i j =>
    obtain ⟨hi, hj⟩ := hp
    obtain ⟨v, hv⟩ := Option.ne_none_iff_exists'.mp hj
    obtain ⟨u, hu⟩ := Option.ne_none_iff_exists'.mp hi
    cases c with
    | semaphore =>
      have ho : owner s i = none := hcare
      have hui : u = .initializer := by
        cases u with
        | indet => exact absurd hu (h.noIndet i)
        | initializer => rfl
        | obj r => simp [owner, hu, ctxObj] at ho
      subst hui
      refine ⟨{ s with vars := upd (upd s.vars i (some v)) j (some .initializer), log := .closedNothing :: s.log },
        by simp [step, hu, hv, assignLog, isInit, destroy], ?_, ?_, moved_indet h hv⟩
      · exact (h.ledger.nothing.moveInto (i := i) (j := j) ho).congr (moved_owner hv)
      · intro r hr; exact h.fresh r (by simpa using hr)
    | mutex =>
      obtain ⟨log, hd, hled, hm⟩ := drop_ok h hl hu
      have ha : assignLog looks .mutex s.log u = .ok log := by simpa [assignLog, dropLog] using hd
      refine ⟨{ s with vars := upd (upd s.vars i (some v)) j (some .initializer), log := log },
        by simp [step, hu, hv, ha], ?_, fun r hr => h.fresh r (hm r hr), moved_indet h hv⟩
      by_cases hij : i = j
      · subst hij
        refine hled.congr ?_
        intro k
        refine Eq.trans (moved_owner hv k) ?_
        by_cases hk : k = i
        · subst hk; simp
        · simp [upd_ne _ _ hk]
      · refine (hled.move (i := i) (j := j) (by simp) hij).congr ?_
        intro k
        refine Eq.trans (moved_owner hv k) ?_
        by_cases hkj : k = j
        · subst hkj; simp
        · rw [upd_ne _ _ hkj, upd_ne _ _ hkj]
          by_cases hki : k = i
          · subst hki; simp [upd_ne _ _ (fun e => hkj e.symm)]
          · simp [upd_ne _ _ hki]
    | spin =>
      obtain ⟨log, hd, hled, hm⟩ := drop_ok h hl hu
      have ha : assignLog looks .spin s.log u = .ok log := by simpa [assignLog, dropLog] using hd
      refine ⟨{ s with vars := upd (upd s.vars i (some v)) j (some .initializer), log := log },
        by simp [step, hu, hv, ha], ?_, fun r hr => h.fresh r (hm r hr), moved_indet h hv⟩
      by_cases hij : i = j
      · subst hij
        refine hled.congr ?_
        intro k
        refine Eq.trans (moved_owner hv k) ?_
        by_cases hk : k = i
        · subst hk; simp
        · simp [upd_ne _ _ hk]
      · refine (hled.move (i := i) (j := j) (by simp) hij).congr ?_
        intro k
        refine Eq.trans (moved_owner hv k) ?_
        by_cases hkj : k = j
        · subst hkj; simp
        · rw [upd_ne _ _ hkj, upd_ne _ _ hkj]
          by_cases hki : k = i
          · subst hki; simp [upd_ne _ _ (fun e => hkj e.symm)]
          · simp [upd_ne _ _ hki]
  | drop i =>
    simp only [pre] at hp
    obtain ⟨v, hv⟩ := Option.ne_none_iff_exists'.mp hp
    obtain ⟨log, hd, hled, hm⟩ := drop_ok h hl hv
    refine ⟨{ s with vars := upd s.vars i none, log := log }, by simp [step, hv, hd], ?_,
      fun r hr => h.fresh r (hm r hr), ?_⟩
    · refine hled.congr ?_
      intro k
      by_cases hk : k = i
      · subst hk; simp [owner]
      · simp [owner, upd_ne _ _ hk]
    · intro k
      by_cases hk : k = i
      · subst hk; simp
      · simp only [upd_ne _ _ hk]; exact h.noIndet k
  | use i =>
    obtain ⟨r, ho⟩ := Option.ne_none_iff_exists'.mp (show owner s i ≠ none from hp)
    have hv : s.vars i = some (.obj r) := by
      cases hv : s.vars i with
      | none => simp [owner, hv] at ho
      | some v => cases v <;> simp [owner, hv, ctxObj] at ho; rw [ho]
    refine ⟨{ s with log := .used r :: s.log }, by simp [step, hv, h.ledger.ownedLive i r ho], ?_, ?_, h.noIndet⟩
    · exact (h.ledger.use ho).congr (by intro k; rfl)
    · intro q hq; exact h.fresh q (by simpa using hq)

theorem reach_inv {looks : Nat → Bool} (hl : ∀ r, looks r = false) {c : Cls} {s : St}
    (h : Reach (step looks c) (careful c) init s) : Inv s :=
  h.inv inv_init (fun s o s' hi hp he => by
    obtain ⟨u, hu, hinv⟩ := step_ok hl hi hp
    rw [he] at hu
    injection hu with hu
    subst hu
    exact hinv)

end Flame.Own.Native

namespace Flame.Own.Lib

structure Inv (s : St) : Prop where
  ledger : Ledger (owner s) s.log
  fresh : ∀ r, .made r ∈ s.log → r < s.next

theorem inv_init : Inv init := ⟨Ledger.init.congr (by intro i; rfl), by simp [init]⟩

theorem moved_owner {s : St} {i j : Nat} {v : Handle} (hj : s.vars j = some v) (k : Nat) :
    ((upd (upd s.vars i (some v)) j (some Handle.null)) k).bind handleLib =
      upd (upd (owner s) i (owner s j)) j none k := by
  by_cases hkj : k = j
  · subst hkj; simp [handleLib]
  · rw [upd_ne _ _ hkj, upd_ne _ _ hkj]
    by_cases hki : k = i
    · subst hki; simp [owner, hj]
    · rw [upd_ne _ _ hki, upd_ne _ _ hki]; rfl

theorem create_ledger {s : St} {i : Nat} (hi : s.vars i = none) (k : Nat) :
    (upd s.vars i (some (Handle.cell none)) k).bind handleLib = owner s k := by
  by_cases hk : k = i
  · subst hk; simp [owner, hi, handleLib]
  · simp [owner, upd_ne _ _ hk]

theorem step_ok {s : St} (h : Inv s) {o : Op} (hp : careful s o) : ∃ s', step s o = .ok s' ∧ Inv s' := by
  obtain ⟨hp, hcare⟩ := hp
  cases o with
  | create i =>
    simp only [pre] at hp
    exact ⟨{ s with vars := upd s.vars i (some (.cell none)), cells := s.cells + 1 }, by simp [step, hp],
      h.ledger.congr (create_ledger hp), h.fresh⟩
  | load i found =>
    simp only [pre] at hp
    cases found with
    | false =>
      exact ⟨{ s with vars := upd s.vars i (some (.cell none)), cells := s.cells + 1 }, by simp [step, hp],
        h.ledger.congr (create_ledger hp), h.fresh⟩
    | true =>
      have h1 : .made s.next ∉ s.log := fun hm => Nat.lt_irrefl _ (h.fresh _ hm)
      have h2 : .closed s.next ∉ s.log := fun hc => h1 (closed_made h.ledger.proper hc)
      refine ⟨_, by simp [step, hp]; rfl, ?_, ?_⟩
      · refine (h.ledger.make (i := i) (by simp [owner, hp]) h1 h2).congr ?_
        intro k
        by_cases hk : k = i
        · subst hk; simp [owner, handleLib]
        · simp [owner, upd_ne _ _ hk]
      · intro r hr
        rcases List.mem_cons.mp hr with e | e
        · injection e with e; subst e; exact Nat.lt_succ_self _
        · exact Nat.lt_succ_of_lt (h.fresh r e)
  | moveCtor i j =>
    obtain ⟨hi, hj⟩ := hp
    obtain ⟨v, hv⟩ := Option.ne_none_iff_exists'.mp hj
    have hij : i ≠ j := by intro e; subst e; exact hj hi
    exact ⟨{ s with vars := upd (upd s.vars i (some v)) j (some .null) }, by simp [step, hi, hv],
      (h.ledger.move (i := i) (j := j) (by simp [owner, hi]) hij).congr (moved_owner hv), h.fresh⟩
  | moveAssign i j =>
    obtain ⟨hi, hj⟩ := hp
    have ho : owner s i = none := hcare
    obtain ⟨v, hv⟩ := Option.ne_none_iff_exists'.mp hj
    obtain ⟨u, hu⟩ := Option.ne_none_iff_exists'.mp hi
    exact ⟨{ s with vars := upd (upd s.vars i (some v)) j (some .null) }, by simp [step, hu, hv],
      (h.ledger.moveInto (i := i) (j := j) ho).congr (moved_owner hv), h.fresh⟩
  | use i =>
    simp only [pre] at hp
    obtain ⟨v, hv⟩ := Option.ne_none_iff_exists'.mp hp
    cases v with
    | null => exact absurd hv hcare
    | cell c =>
      cases c with
      | none => exact ⟨s, by simp [step, hv, handleRef], h⟩
      | some r =>
        have ho : owner s i = some r := by simp [owner, hv, handleLib]
        refine ⟨{ s with log := .used r :: s.log }, by simp [step, hv, handleRef, h.ledger.ownedLive i r ho], ?_, ?_⟩
        · exact (h.ledger.use ho).congr (by intro k; rfl)
        · intro q hq; exact h.fresh q (by simpa using hq)
  | drop i =>
    simp only [pre] at hp
    obtain ⟨v, hv⟩ := Option.ne_none_iff_exists'.mp hp
    cases v with
    | null => exact absurd hv hcare
    | cell c =>
      cases c with
      | none =>
        refine ⟨{ s with vars := upd s.vars i none }, by simp [step, hv, handleRef], h.ledger.congr ?_, h.fresh⟩
        intro k
        by_cases hk : k = i
        · subst hk; simp [owner, hv, handleLib]
        · simp [owner, upd_ne _ _ hk]
      | some r =>
        have ho : owner s i = some r := by simp [owner, hv, handleLib]
        refine ⟨_, by simp [step, hv, handleRef, h.ledger.ownedLive i r ho]; rfl, (h.ledger.close ho).congr ?_, ?_⟩
        · intro k
          by_cases hk : k = i
          · subst hk; simp [owner]
          · simp [owner, upd_ne _ _ hk]
        · intro q hq; exact h.fresh q (by simpa using hq)

theorem reach_inv {s : St} (h : Reach step careful init s) : Inv s :=
  h.inv inv_init (fun s o s' hi hp he => by
    obtain ⟨u, hu, hinv⟩ := step_ok hi hp
    rw [he] at hu
    injection hu with hu
    subst hu
    exact hinv)

end Flame.Own.Lib

namespace Flame
open Own

/-! ## C44 -/

/-- **C44, the part that holds.** Provided the bytes of an initialised native object differ from the initializer
constant: in every execution without move construction of `Mutex`/`Spin` and without assignment over a held
`Semaphore`, every native object that exists has exactly one owner, every destruction and use hits an existing
one, no permitted operation is undefined. -/
theorem C44_native_partial {looks : Nat → Bool} (hl : ∀ r, looks r = false) {c : Native.Cls} {s : Native.St}
    (h : Reach (Native.step looks c) (Native.careful c) Native.init s) :
    Ledger (Native.owner s) s.log ∧ ((∀ i, s.vars i = none) → ReleasedOnce s.log) ∧
    ∀ o, Native.careful c s o → ∃ s', Native.step looks c s o = .ok s' :=
  ⟨(Native.reach_inv hl h).ledger,
    fun hg => (Native.reach_inv hl h).ledger.releasedOnce (by intro i; simp [Native.owner, hg i]),
    fun _ hp => let ⟨s', hs, _⟩ := Native.step_ok hl (Native.reach_inv hl h) hp; ⟨s', hs⟩⟩

/-- **C44 fails.** Move construction of a `Mutex` or `Spin` is undefined in every state: the assignment it
delegates to inspects (and may destroy) the new object's context, which was never initialised. -/
theorem C44_move_ctor_ub (looks : Nat → Bool) {c : Native.Cls} (hc : c ≠ .semaphore) (s : Native.St) (i j : Nat) :
    Native.step looks c s (.moveCtor i j) = .ub := by
  unfold Native.step
  cases c with
  | semaphore => exact absurd rfl hc
  | mutex => simp only [Native.assignLog, Native.startCtx, Native.isInit]; split <;> rfl
  | spin => simp only [Native.assignLog, Native.startCtx, Native.isInit]; split <;> rfl

/-- **C44 fails.** Assigning over a `Semaphore` that holds a native semaphore never destroys it (the condition is
inverted), for every environment. -/
theorem C44_semaphore_assign_leaks (looks : Nat → Bool) (hl : ∀ r, looks r = false) {s : Native.St}
    (h : Reach (Native.step looks .semaphore) (Native.careful .semaphore) Native.init s) {i j r : Nat}
    (hi : Native.owner s i = some r) (hj : s.vars j ≠ none) :
    ∃ s', Native.step looks .semaphore s (.moveAssign i j) = .ok s' ∧ Live r s'.log ∧
      ∀ k, Native.owner s' k ≠ some r := by
  have hinv := Native.reach_inv hl h
  obtain ⟨v, hv⟩ := Option.ne_none_iff_exists'.mp hj
  have hu : s.vars i = some (.obj r) := by
    cases hv : s.vars i with
    | none => simp [Native.owner, hv] at hi
    | some v => cases v <;> simp [Native.owner, hv, Native.ctxObj] at hi; rw [hi]
  refine ⟨{ s with vars := upd (upd s.vars i (some v)) j (some .initializer) },
    by simp [Native.step, hu, hv, Native.assignLog, Native.isInit, hl r], hinv.ledger.ownedLive i r hi, ?_⟩
  intro k hk
  replace hk := (Native.moved_owner (i := i) hv k).symm.trans hk
  by_cases hkj : k = j
  · subst hkj; simp at hk
  · rw [upd_ne _ _ hkj] at hk
    by_cases hki : k = i
    · subst hki
      rw [upd_self] at hk
      exact hkj (hinv.ledger.unique k j r hi hk)
    · rw [upd_ne _ _ hki] at hk
      exact hki (hinv.ledger.unique k i r hk hi)

/-- **C44, exactly.**  From every state reached carefully: a declared operation completes and leaves every native object with exactly one owner if and only if
it is neither the move construction of a `Mutex` or `Spin` nor the assignment over a `Semaphore` that holds a native semaphore. -/
theorem C44_step_exact {looks : Nat → Bool} (hl : ∀ r, looks r = false) {c : Native.Cls} {s : Native.St}
    (h : Reach (Native.step looks c) (Native.careful c) Native.init s) (o : Native.Op) (hp : Native.pre s o) :
    (∃ s', Native.step looks c s o = .ok s' ∧ Ledger (Native.owner s') s'.log) ↔
      ¬ ((c ≠ .semaphore ∧ ∃ i j, o = .moveCtor i j) ∨ (c = .semaphore ∧ ∃ i j, o = .moveAssign i j ∧ Native.owner s i ≠ none)) := by
  constructor
  · rintro ⟨s', e, hled⟩ (⟨hc, i, j, rfl⟩ | ⟨hc, i, j, rfl, ho⟩)
    · rw [C44_move_ctor_ub looks hc] at e; cases e
    · subst hc
      obtain ⟨r, hr⟩ := Option.ne_none_iff_exists'.mp ho
      obtain ⟨s2, e2, hlive, hno⟩ := C44_semaphore_assign_leaks looks hl h hr hp.2
      rw [e] at e2
      injection e2 with e2
      subst e2
      obtain ⟨k, hk⟩ := hled.noOrphan r hlive
      exact hno k hk
  · intro hn
    have hcare : Native.careful c s o := by
      refine ⟨hp, ?_⟩
      cases c <;> cases o <;> first
        | trivial
        | (refine absurd (Or.inl ⟨by simp, _, _, rfl⟩) hn)
        | (rename_i i j
           refine Classical.byContradiction fun hx => hn (Or.inr ⟨rfl, i, j, rfl, hx⟩))
    obtain ⟨s', e, hi⟩ := Native.step_ok hl (Native.reach_inv hl h) hcare
    exact ⟨s', e, hi.ledger⟩

-- both sides occur: a semaphore assigned to itself while empty, and one assigned over while held
example : ∃ s, Reach (Native.step (fun _ => false) .semaphore) (Native.careful .semaphore) Native.init s ∧
    (Native.owner s 0, Native.owner s 1) = (none, some 0) :=
  Reach.witness [.create 0, .moveCtor 1 0, .moveAssign 0 0] _ _ (by decide)

/-- **C44 fails.** Moving into a new `Semaphore` asks the system to destroy a semaphore that was never
initialised. -/
theorem C44_semaphore_move_destroys_nothing (looks : Nat → Bool) {s : Native.St} {i j : Nat} {v : Native.Ctx}
    (hi : s.vars i = none) (hj : s.vars j = some v) :
    ∃ s', Native.step looks .semaphore s (.moveCtor i j) = .ok s' ∧ s'.log = .closedNothing :: s.log :=
  ⟨{ s with vars := upd (upd s.vars i (some v)) j (some .initializer), log := .closedNothing :: s.log },
    by simp [Native.step, hi, hj, Native.assignLog, Native.startCtx, Native.isInit, Native.destroy], rfl⟩

/-- **C44 depends on the C library.** A native object whose fresh bytes equal the initializer constant (glibc: a
default mutex, a semaphore with value 0) is never destroyed by the destructor. -/
theorem C44_looks_like_initializer {looks : Nat → Bool} (c : Native.Cls) {s : Native.St} {i r : Nat}
    (hl : looks r = true) (hi : s.vars i = some (.obj r)) :
    ∃ s', Native.step looks c s (.drop i) = .ok s' ∧ s'.log = s.log ∧ s'.vars i = none :=
  ⟨{ s with vars := upd s.vars i none }, by simp [Native.step, hi, Native.dropLog, Native.isInit, hl], rfl, by simp⟩

example : ∃ s, Reach (Native.step (fun _ => false) .mutex) (Native.careful .mutex) Native.init s ∧
    (s.log, (List.range 3).map s.vars) =
      ([.closed 2, .closed 1, .used 1, .closed 0, .made 2, .made 1, .made 0], List.replicate 3 none) :=
  Reach.witness [.create 0, .create 1, .create 2, .moveAssign 0 1, .use 0, .moveAssign 0 0, .drop 1, .drop 0, .drop 2]
    _ _ (by decide)

example : ∃ s, Reach (Native.step (fun _ => false) .semaphore) (Native.careful .semaphore) Native.init s ∧
    (s.log, (List.range 3).map s.vars) =
      ([.closed 0, .closedNothing, .closedNothing, .made 0], List.replicate 3 none) :=
  Reach.witness [.create 0, .moveCtor 1 0, .moveAssign 0 1, .drop 1, .drop 0] _ _ (by decide)

/-! ## C43 -/

/-- **C43, the part that holds.** In every execution that neither uses nor destroys a moved-from `Library` and
does not assign over a loaded one: each loaded library has exactly one owner, is closed only while loaded, and
no permitted operation is undefined. -/
theorem C43_library_partial {s : Lib.St} (h : Reach Lib.step Lib.careful Lib.init s) :
    Ledger (Lib.owner s) s.log ∧ ((∀ i, Lib.owner s i = none) → ReleasedOnce s.log) ∧
    ∀ o, Lib.careful s o → ∃ s', Lib.step s o = .ok s' :=
  ⟨(Lib.reach_inv h).ledger, fun hg => (Lib.reach_inv h).ledger.releasedOnce hg,
    fun _ hp => let ⟨s', hs, _⟩ := Lib.step_ok (Lib.reach_inv h) hp; ⟨s', hs⟩⟩

/-- **C43 fails.** From any state: moving a `Library` and then destroying (or testing) the moved-from object
dereferences null. -/
theorem C43_moved_from_ub (s : Lib.St) {i j : Nat} {v : Lib.Handle} (hi : s.vars i = none) (hj : s.vars j = some v) :
    runOps Lib.step s [.moveCtor i j, .drop j] = .ub ∧ runOps Lib.step s [.moveCtor i j, .use j] = .ub := by
  simp [runOps, Lib.step, hi, hj, Lib.handleRef]

/-- **C43 fails.** Assigning over a loaded library (or a library to itself) never closes it. -/
theorem C43_assign_leaks {s : Lib.St} (h : Reach Lib.step Lib.careful Lib.init s) {i j r : Nat}
    (hi : Lib.owner s i = some r) (hj : s.vars j ≠ none) :
    ∃ s', Lib.step s (.moveAssign i j) = .ok s' ∧ Live r s'.log ∧ ∀ k, Lib.owner s' k ≠ some r := by
  have hinv := Lib.reach_inv h
  obtain ⟨v, hv⟩ := Option.ne_none_iff_exists'.mp hj
  have hi' : s.vars i ≠ none := by intro e; simp [Lib.owner, e] at hi
  obtain ⟨u, hu⟩ := Option.ne_none_iff_exists'.mp hi'
  refine ⟨{ s with vars := upd (upd s.vars i (some v)) j (some .null) },
    by simp [Lib.step, hu, hv], hinv.ledger.ownedLive i r hi, ?_⟩
  intro k hk
  replace hk := (Lib.moved_owner (i := i) hv k).symm.trans hk
  by_cases hkj : k = j
  · subst hkj; simp at hk
  · rw [upd_ne _ _ hkj] at hk
    by_cases hki : k = i
    · subst hki
      rw [upd_self] at hk
      exact hkj (hinv.ledger.unique k j r hi hk)
    · rw [upd_ne _ _ hki] at hk
      exact hki (hinv.ledger.unique k i r hk hi)

/-- **C43, exactly.**  From every state reached carefully: a declared operation completes and leaves every loaded library with exactly one owner if and only if it
neither uses nor destroys a moved-from object nor assigns over a loaded library. -/
theorem C43_step_exact {s : Lib.St} (h : Reach Lib.step Lib.careful Lib.init s) (o : Lib.Op) (hp : Lib.pre s o) :
    (∃ s', Lib.step s o = .ok s' ∧ Ledger (Lib.owner s') s'.log) ↔
      ¬ ∃ i, ((o = .use i ∨ o = .drop i) ∧ s.vars i = some .null) ∨ (∃ j, o = .moveAssign i j ∧ Lib.owner s i ≠ none) := by
  constructor
  · rintro ⟨s', e, hled⟩ ⟨i, (⟨rfl | rfl, hv⟩ | ⟨j, rfl, ho⟩)⟩
    · simp [Lib.step, hv, Lib.handleRef] at e
    · simp [Lib.step, hv, Lib.handleRef] at e
    · obtain ⟨r, hr⟩ := Option.ne_none_iff_exists'.mp ho
      obtain ⟨s2, e2, hlive, hno⟩ := C43_assign_leaks h hr hp.2
      rw [e] at e2
      injection e2 with e2
      subst e2
      obtain ⟨k, hk⟩ := hled.noOrphan r hlive
      exact hno k hk
  · intro hn
    have hcare : Lib.careful s o := by
      refine ⟨hp, ?_⟩
      cases o with
      | use i => exact fun hv => hn ⟨i, Or.inl ⟨Or.inl rfl, hv⟩⟩
      | drop i => exact fun hv => hn ⟨i, Or.inl ⟨Or.inr rfl, hv⟩⟩
      | moveAssign i j => exact Classical.byContradiction fun hx => hn ⟨i, Or.inr ⟨j, rfl, hx⟩⟩
      | _ => trivial
    obtain ⟨s', e, hi⟩ := Lib.step_ok (Lib.reach_inv h) hcare
    exact ⟨s', e, hi.ledger⟩

-- both sides occur: variable 0 may be assigned over (also to itself) but not destroyed, variable 1 the other way round
example : ∃ s, Reach Lib.step Lib.careful Lib.init s ∧ (s.vars 0, Lib.owner s 1) = (some .null, some 0) :=
  Reach.witness [.load 0 true, .moveCtor 1 0, .moveAssign 0 0] _ _ (by decide)

/-- **C43 fails.** The heap cell of a library that was not found (or default constructed) is never freed. -/
theorem C43_cell_leaks (s : Lib.St) {i : Nat} (hi : s.vars i = none) :
    ∃ s', runOps Lib.step s [.load i false, .drop i] = .ok s' ∧ s'.cells = s.cells + 1 ∧ s'.vars i = none :=
  ⟨{ s with vars := upd (upd s.vars i (some (.cell none))) i none, cells := s.cells + 1 },
    by simp [runOps, Lib.step, hi, Lib.handleRef], rfl, by simp⟩

example : ∃ s, Reach Lib.step Lib.careful Lib.init s ∧
    (s.log, (List.range 3).map s.vars) =
      ([.closed 0, .used 0, .closed 1, .made 1, .made 0], [some .null, none, none]) :=
  Reach.witness [.load 0 true, .load 1 true, .create 2, .drop 1, .moveAssign 2 0, .use 2, .drop 2] _ _ (by decide)

/-- Specification: calls that make an object (and allocate its cell). -/
def Own.Lib.makes : Lib.Op → Bool
  | .create _ | .load _ _ => true
  | _ => false

/-- Specification: libraries closed according to the log. -/
def Own.Lib.closings (l : List Ev) : Nat := l.countP fun e => match e with | .closed _ => true | _ => false

theorem Own.Lib.cells_step {s s' : Lib.St} {o : Lib.Op} (h : Lib.step s o = .ok s') :
    s'.cells + Lib.closings s'.log = s.cells + Lib.closings s.log + (if Lib.makes o then 1 else 0) := by
  cases o with
  | create i =>
    simp only [Lib.step] at h
    cases hv : s.vars i <;> rw [hv] at h <;> cases h
    simp [Lib.makes]; omega
  | load i found =>
    simp only [Lib.step] at h
    cases hv : s.vars i <;> rw [hv] at h <;> try cases h
    cases found <;> cases h <;> simp [Lib.makes, Lib.closings] <;> omega
  | moveCtor i j =>
    simp only [Lib.step] at h
    cases hv : s.vars i <;> cases hw : s.vars j <;> rw [hv, hw] at h <;> cases h
    simp [Lib.makes]
  | moveAssign i j =>
    simp only [Lib.step] at h
    cases hv : s.vars i <;> cases hw : s.vars j <;> rw [hv, hw] at h <;> cases h
    simp [Lib.makes]
  | use i =>
    simp only [Lib.step] at h
    cases hv : s.vars i with
    | none => rw [hv] at h; cases h
    | some v =>
      rw [hv] at h
      rcases v with _ | _ | r
      · cases h
      · cases h; simp [Lib.makes]
      · simp only [Lib.handleRef] at h
        split at h
        · cases h; simp [Lib.makes, Lib.closings]
        · cases h
  | drop i =>
    simp only [Lib.step] at h
    cases hv : s.vars i with
    | none => rw [hv] at h; cases h
    | some v =>
      rw [hv] at h
      rcases v with _ | _ | r
      · cases h
      · cases h; simp [Lib.makes]
      · simp only [Lib.handleRef] at h
        split at h
        · cases h; simp [Lib.makes, Lib.closings]; omega
        · cases h

/-- **C43.** In every execution, careful or not, the heap cells not freed are as many as objects were made minus libraries
closed: only closing a library frees a cell. -/
theorem C43_cells_exact {ops : List Lib.Op} {s : Lib.St} (h : runOps Lib.step Lib.init ops = .ok s) :
    s.cells = (ops.countP Lib.makes : Int) - Lib.closings s.log := by
  have key : ∀ (ops : List Lib.Op) (a : Lib.St), runOps Lib.step a ops = .ok s →
      s.cells + Lib.closings s.log = a.cells + Lib.closings a.log + ops.countP Lib.makes := by
    intro ops
    induction ops with
    | nil => intro a h; cases h; simp
    | cons o ops ih =>
      intro a h
      simp only [runOps] at h
      cases hs : Lib.step a o with
      | ok b =>
        rw [hs] at h
        rw [ih b h, Lib.cells_step hs, List.countP_cons]
        by_cases hm : Lib.makes o = true <;> simp [hm] <;> omega
      | ub => rw [hs] at h; cases h
      | loop => rw [hs] at h; cases h
  have := key ops Lib.init h
  simp [Lib.init, Lib.closings] at this ⊢
  omega

/-- Two objects made, one library closed: one cell is left for ever. -/
example : ∃ s, runOps Lib.step Lib.init [.load 0 true, .drop 0, .create 1, .drop 1] = .ok s ∧ s.cells = 1 := ⟨_, rfl, by decide⟩

namespace Flame
open Own
example := C44_native_partial (looks := fun _ => false) (fun _ => rfl) (c := .mutex)
  (.visit ([.create 0, .create 1, .moveAssign 0 1, .use 0] : List Native.Op) (by decide +kernel))
example := C44_move_ctor_ub (fun _ => false) (c := .mutex) (by decide) Native.init 1 0
example := C44_semaphore_assign_leaks (fun _ => false) (fun _ => rfl)
  (.visit ([.create 0, .create 1] : List Native.Op) (by decide +kernel)) (i := 0) (j := 1) (r := 0) (by decide +kernel) (by decide +kernel)
example := C44_semaphore_move_destroys_nothing (fun _ => false)
  (s := visit (Native.step (fun _ => false) .semaphore) (Native.careful .semaphore) Native.init [.create 0]) (i := 1) (j := 0) rfl rfl
example := C43_library_partial (.visit ([.load 0 true, .load 1 true, .create 2, .drop 1] : List Lib.Op) (by decide +kernel))
example := C43_moved_from_ub (visit Lib.step Lib.careful Lib.init [.load 0 true]) (i := 1) (j := 0) rfl rfl
example := C43_assign_leaks (.visit ([.load 0 true, .load 1 true] : List Lib.Op) (by decide +kernel)) (i := 0) (j := 1) (r := 0)
  (by decide +kernel) (by decide +kernel)
end Flame

end Flame
