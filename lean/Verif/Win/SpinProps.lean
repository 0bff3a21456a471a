import Verif.Win.Spin

/-!
# C111: a Windows spin lock is held by one thread at a time

False, for two independent reasons: `lock` returns exactly when the lock is *taken* (its loop condition is
inverted), and `tryLock` tests and sets in two steps.  What remains true: complete `tryLock`/`unlock` calls that do
not overlap behave like a lock.
-/

namespace Flame.WinSpin
open Flame.Own (upd upd_self upd_ne)

theorem run_append (s : St) (l m : List (Nat × Act)) : run s (l ++ m) = (run s l).bind fun s' => run s' m := by
  induction l generalizing s with
  | nil => rfl
  | cons p l ih =>
    obtain ⟨t, a⟩ := p
    simp only [List.cons_append, run]
    cases step s t a with
    | none => rfl
    | some s' => simpa using ih s'

/-- The specification: at most one thread holds the lock. -/
def Exclusive (s : St) : Prop := ∀ t u, s.pc t = .holds → s.pc u = .holds → t = u

/-- C111 (violated): any number of threads can be inside `lock`…`unlock` together; nothing more than calling
`lock` is needed. -/
theorem C111_exclusion_violated (n : Nat) :
    ∃ sched s, run init sched = some s ∧ (∀ p ∈ sched, p.2 = .callLock ∨ p.2 = .tick) ∧
      (∀ t, t < n → s.pc t = .holds) ∧ ∀ t, n ≤ t → s.pc t = .idle := by
  have key : ∀ n, ∃ sched s, run init sched = some s ∧ (∀ p ∈ sched, p.2 = .callLock ∨ p.2 = .tick) ∧
      (∀ t, t < n → s.pc t = .holds) ∧ (∀ t, n ≤ t → s.pc t = .idle) ∧ (s.value = UNLOCKED ∨ s.value = LOCKED) := by
    intro n
    induction n with
    | zero => exact ⟨[], init, rfl, by simp, by omega, fun _ _ => rfl, .inl rfl⟩
    | succ n ih =>
      obtain ⟨sched, s, hr, ha, hh, hi, hv⟩ := ih
      have hn : s.pc n = .idle := hi n (Nat.le_refl n)
      rcases hv with hv | hv
      · refine ⟨sched ++ [(n, .callLock), (n, .tick), (n, .tick), (n, .tick)], ⟨LOCKED, upd s.pc n .holds⟩, ?_, ?_, ?_, ?_, .inr rfl⟩
        · rw [run_append, hr]
          simp only [Option.bind, run, step, hn, upd_self, andStep, hv]
          have : (LOCKED &&& LOCKED : BitVec 32) = LOCKED := by decide
          have h2 : ¬ (UNLOCKED = LOCKED) := by decide
          simp only [h2, if_false, upd_self, if_true, this]
          congr 1
          congr 1
          funext u
          by_cases hu : u = n <;> simp [upd, hu]
        · intro p hp
          rcases List.mem_append.1 hp with hp | hp
          · exact ha p hp
          · simp at hp; rcases hp with rfl | rfl <;> simp
        · intro t ht
          by_cases h : t = n
          · subst h; simp
          · simp only [upd, h, if_false]; exact hh t (by omega)
        · intro t ht
          have h : t ≠ n := by omega
          simp only [upd, h, if_false]; exact hi t (by omega)
      · refine ⟨sched ++ [(n, .callLock), (n, .tick)], ⟨LOCKED, upd s.pc n .holds⟩, ?_, ?_, ?_, ?_, .inr rfl⟩
        · rw [run_append, hr]
          simp only [Option.bind, run, step, hn, upd_self, andStep, hv]
          have : (LOCKED &&& LOCKED : BitVec 32) = LOCKED := by decide
          simp only [if_true, this]
          congr 1
          congr 1
          funext u
          by_cases hu : u = n <;> simp [upd, hu]
        · intro p hp
          rcases List.mem_append.1 hp with hp | hp
          · exact ha p hp
          · simp at hp; rcases hp with rfl | rfl <;> simp
        · intro t ht
          by_cases h : t = n
          · subst h; simp
          · simp only [upd, h, if_false]; exact hh t (by omega)
        · intro t ht
          have h : t ≠ n := by omega
          simp only [upd, h, if_false]; exact hi t (by omega)
  obtain ⟨sched, s, h1, h2, h3, h4, _⟩ := key n
  exact ⟨sched, s, h1, h2, h3, h4⟩

/-- C111 (violated): `tryLock` alone does not exclude either: two threads may both be told `TRY_LOCK_OK`. -/
theorem C111_try_violated (t u : Nat) (h : t ≠ u) :
    ∃ s, run init [(t, .callTry), (u, .callTry), (t, .tick), (u, .tick), (t, .tick), (u, .tick)] = some s ∧
      s.pc t = .holds ∧ s.pc u = .holds := by
  have hu : u ≠ t := fun e => h e.symm
  have e1 : ¬ (UNLOCKED = LOCKED) := by decide
  have e2 : ¬ ((UNLOCKED &&& LOCKED : BitVec 32) = LOCKED) := by decide
  simp [run, step, init, andStep, upd, h, hu, e1, e2]

/-- C111 (violated): a thread in `lock` returns at the very moment it finds the lock taken, and at no other. -/
theorem C111_lock_returns_iff_taken (s : St) (t : Nat) (h : s.pc t = .lockAnd) :
    ∃ s', step s t .tick = some s' ∧ (s'.pc t = .holds ↔ s.value = LOCKED) := by
  refine ⟨andStep s t .holds .lockXchg, by simp only [step, h], ?_⟩
  by_cases hv : s.value = LOCKED <;> simp [andStep, hv]

example : (⟨LOCKED, fun t => if t = 0 then .holds else .lockAnd⟩ : St).pc 1 = .lockAnd := rfl

/-- `lock` waits for nobody: left alone, a thread in it is through after at most three steps of its own, whoever
else holds the lock; afterwards the value is `LOCKED`. -/
theorem C111_lock_never_waits (s : St) (t : Nat) (h : s.pc t = .lockAnd) :
    ∃ k s', k ≤ 3 ∧ run s (List.replicate k (t, .tick)) = some s' ∧ s'.pc t = .holds ∧ s'.value = LOCKED ∧
      ∀ u, u ≠ t → s'.pc u = s.pc u := by
  have e0 : (LOCKED &&& LOCKED : BitVec 32) = LOCKED := by decide
  by_cases hv : s.value = LOCKED
  · refine ⟨1, ⟨LOCKED, upd s.pc t .holds⟩, by omega, ?_, by simp, rfl, fun u hu => by simp [upd, hu]⟩
    simp [run, step, h, andStep, hv, e0]
  · refine ⟨3, ⟨LOCKED, upd s.pc t .holds⟩, by omega, ?_, by simp, rfl, fun u hu => by simp [upd, hu]⟩
    simp only [List.replicate, run, step, h, andStep, hv, if_false, upd_self, Option.bind, if_true, e0]
    congr 2
    funext u
    by_cases hu : u = t <;> simp [upd, hu]

/-! ## What does hold -/

/-- Complete calls, one after the other. -/
inductive Call where
  | tryLock (t : Nat)
  | unlock (t : Nat)

/-- The steps of a complete call in state `s`: `tryLock` performs its exchange only when it found the lock free. -/
def Call.steps (s : St) : Call → List (Nat × Act)
  | .tryLock t => if s.value = LOCKED then [(t, .callTry), (t, .tick)] else [(t, .callTry), (t, .tick), (t, .tick)]
  | .unlock t => [(t, .unlock)]

/-- Reachable by complete calls; threads that hold the lock only unlock it, others only try. -/
inductive Seq : St → Prop
  | init : Seq init
  | call {s s'} (c : Call) : Seq s → run s (c.steps s) = some s' → Seq s'

/-- The lock is an optional holder. -/
def Holder (s : St) : Option Nat → Prop
  | none => s.value = UNLOCKED ∧ ∀ t, s.pc t = .idle
  | some h => s.value = LOCKED ∧ ∀ t, s.pc t = if t = h then .holds else .idle

theorem Seq.holder {s : St} (h : Seq s) : ∃ o, Holder s o := by
  have e1 : ¬ (UNLOCKED = LOCKED) := by decide
  have e0 : (LOCKED &&& LOCKED : BitVec 32) = LOCKED := by decide
  induction h with
  | init => exact ⟨none, rfl, fun _ => rfl⟩
  | @call s s' c _ hr ih =>
    obtain ⟨o, ho⟩ := ih
    cases o with
    | none =>
      obtain ⟨hv, hp⟩ := ho
      cases c with
      | tryLock t =>
        simp [Call.steps, hv, e1, run, step, hp, andStep] at hr
        subst hr
        refine ⟨some t, rfl, fun u => ?_⟩
        by_cases hu : u = t <;> simp [upd, hu, hp]
      | unlock t => simp [Call.steps, run, step, hp] at hr
    | some k =>
      obtain ⟨hv, hp⟩ := ho
      cases c with
      | tryLock t =>
        by_cases ht : t = k
        · simp [Call.steps, hv, run, step, hp, ht] at hr
        · simp [Call.steps, hv, run, step, hp, ht, andStep, e0] at hr
          subst hr
          refine ⟨some k, rfl, fun u => ?_⟩
          by_cases hu : u = t <;> simp [upd, hu, hp, ht]
      | unlock t =>
        by_cases ht : t = k
        · simp [Call.steps, run, step, hp, ht] at hr
          subst hr
          refine ⟨none, rfl, fun u => ?_⟩
          by_cases hu : u = k <;> simp [upd, hu, hp]
        · simp [Call.steps, run, step, hp, ht] at hr

/-- C111 (partial: only complete `tryLock` and `unlock` calls that do not overlap, and no `lock`): at most one
thread holds the lock. -/
theorem C111_exclusion_partial {s : St} (h : Seq s) : Exclusive s := by
  obtain ⟨o, ho⟩ := h.holder
  intro t u ht hu
  cases o with
  | none => rw [ho.2] at ht; cases ht
  | some k =>
    rw [ho.2] at ht hu
    by_cases h1 : t = k
    · by_cases h2 : u = k
      · rw [h1, h2]
      · simp [h2] at hu
    · simp [h1] at ht

/-- C111 (partial, as above): a complete `tryLock` of a thread that does not hold the lock succeeds if and only if
nobody does, and then the thread is the holder; otherwise nothing changes hands. -/
theorem C111_try_partial {s : St} (h : Seq s) (t : Nat) (ht : s.pc t ≠ .holds) :
    ∃ s', run s (Call.steps s (.tryLock t)) = some s' ∧
      (s'.pc t = .holds ↔ ∀ u, s.pc u ≠ .holds) ∧ ∀ u, u ≠ t → s'.pc u = s.pc u := by
  have e1 : ¬ (UNLOCKED = LOCKED) := by decide
  obtain ⟨o, ho⟩ := h.holder
  cases o with
  | none =>
    obtain ⟨hv, hp⟩ := ho
    refine ⟨⟨LOCKED, upd s.pc t .holds⟩, ?_, ?_, fun u hu => by simp [upd, hu]⟩
    · simp [Call.steps, hv, e1, run, step, hp, andStep]
      funext u
      by_cases hu : u = t <;> simp [upd, hu]
    · simp [hp]
  | some k =>
    obtain ⟨hv, hp⟩ := ho
    have htk : t ≠ k := by
      intro e; apply ht; rw [hp, if_pos e]
    refine ⟨⟨LOCKED, s.pc⟩, ?_, ?_, fun u hu => rfl⟩
    · have e0 : (LOCKED &&& LOCKED : BitVec 32) = LOCKED := by decide
      simp [Call.steps, hv, run, step, hp, htk, andStep, e0]
      funext u
      by_cases hu : u = t <;> simp [upd, hu, hp, htk]
    · constructor
      · intro e; exact absurd e ht
      · intro e; exact absurd (by simp [hp]) (e k)

/-- C111: once its holder has unlocked, the lock can be taken again, by anybody. -/
theorem C111_unlock_partial {s : St} (h : Seq s) (t : Nat) (ht : s.pc t = .holds) :
    ∃ s', run s (Call.steps s (.unlock t)) = some s' ∧ Seq s' ∧ ∀ u, s'.pc u ≠ .holds := by
  obtain ⟨o, ho⟩ := h.holder
  cases o with
  | none => rw [ho.2] at ht; cases ht
  | some k =>
    obtain ⟨hv, hp⟩ := ho
    have htk : t = k := by
      by_cases e : t = k
      · exact e
      · rw [hp, if_neg e] at ht; cases ht
    have hr : run s (Call.steps s (.unlock t)) = some ⟨UNLOCKED, upd s.pc t .idle⟩ := by
      simp [Call.steps, run, step, ht]
    refine ⟨_, hr, .call _ h hr, fun u => ?_⟩
    by_cases hu : u = t
    · simp [hu]
    · have hk : u ≠ k := fun e => hu (e.trans htk.symm)
      simp [upd, hu, hp, hk]

/-- A state in which thread 3 holds the lock. -/
def held3 : St := ⟨LOCKED, upd (fun _ => .idle) 3 .holds⟩

theorem held3_seq : Seq held3 := by
  refine .call (.tryLock 3) .init (s' := held3) ?_
  have e1 : ¬ (UNLOCKED = LOCKED) := by decide
  simp [Call.steps, run, step, init, andStep, e1, held3]
  funext u
  by_cases hu : u = 3 <;> simp [upd, hu]

example : held3.pc 5 ≠ .holds ∧ held3.pc 3 = .holds := by decide

/-- C111: a moved-from or destroyed lock (value `DEAD`) is locked without complaint, by everybody. -/
theorem C111_dead_violated (pc : Nat → Pc) (t : Nat) (h : pc t = .tryAnd) :
    ∃ s', run ⟨DEAD, pc⟩ [(t, .tick), (t, .tick)] = some s' ∧ s'.pc t = .holds ∧ s'.value = LOCKED := by
  have e1 : ¬ (DEAD = LOCKED) := by decide
  simp [run, step, h, andStep, e1]

example : ∃ pc : Nat → Pc, pc 2 = .tryAnd := ⟨fun _ => .tryAnd, rfl⟩

namespace Flame.WinSpin
open Flame.Own (upd upd_self upd_ne)
private theorem seq3 : Seq ⟨LOCKED, upd (upd (upd (fun _ => .idle) 3 .tryAnd) 3 .tryXchg) 3 .holds⟩ := .call (.tryLock 3) .init rfl
example := C111_try_violated 1 2 (by decide)
example := C111_lock_never_waits ⟨LOCKED, fun t => if t = 0 then .holds else .lockAnd⟩ 1 rfl
example := C111_exclusion_partial seq3
example := C111_try_partial seq3 5 (by decide)
example := C111_unlock_partial seq3 3 (by decide)
end Flame.WinSpin

end Flame.WinSpin
