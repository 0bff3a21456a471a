import Verif.Notify.Model

/-!
# C134: notification of socket events
-/

namespace Flame.Notify
open Flame.Own (upd upd_self upd_ne Reach)

/-- The notificator in force according to the program's calls, newest first. -/
def inForce : List Ev → Option Nat
  | [] => none
  | .set n :: _ => some n
  | .unset :: _ => none
  | _ :: l => inForce l

/-- Every notification reaches the notificator in force when it is made. -/
def Faithful : List Ev → Prop
  | [] => True
  | .enter _ n :: l => inForce l = some n ∧ Faithful l
  | _ :: l => Faithful l

/-- What holds between accesses when unsetting and destroying wait: everything a thread holds on to exists, and a thread
that is about to read the pointer finds one. -/
structure Inv (k : Nat) (s : St) : Prop where
  slot : ∀ n, s.slot = some n → s.alive n = true
  tested : ∀ t, s.pc t = .tested → ∃ n, s.slot = some n
  got : ∀ t n, s.pc t = .got n → s.alive n = true
  inside : ∀ t n, s.pc t = .inside n → s.alive n = true
  far : ∀ t, k ≤ t → s.pc t = .idle

theorem Inv.quiet {k : Nat} {s : St} (h : Inv k s) (hq : Quiet k s) (t : Nat) : s.pc t = .idle := by
  by_cases e : t < k
  · exact hq t e
  · exact h.far t (by omega)

theorem Inv.move {k : Nat} {s : St} (h : Inv k s) {t : Nat} {p : Pc} {log : List Ev} (ht : t < k)
    (h1 : p = .tested → ∃ n, s.slot = some n) (h2 : ∀ n, p = .got n → s.alive n = true)
    (h3 : ∀ n, p = .inside n → s.alive n = true) : Inv k { s with pc := upd s.pc t p, log := log } := by
  constructor
  · exact h.slot
  · intro u
    by_cases e : u = t
    · subst e; simpa using h1
    · simpa [upd_ne _ _ e] using h.tested u
  · intro u n
    by_cases e : u = t
    · subst e; simpa using h2 n
    · simpa [upd_ne _ _ e] using h.got u n
  · intro u n
    by_cases e : u = t
    · subst e; simpa using h3 n
    · simpa [upd_ne _ _ e] using h.inside u n
  · intro u hu
    have : u ≠ t := by omega
    simpa [upd_ne _ _ this] using h.far u hu

/-- Every operation in its discipline is defined and preserves the invariant. -/
theorem Inv.step {k : Nat} {s : St} (h : Inv k s) {o : Op} (hp : waiting k s o) :
    ∃ s', step s o = .ok s' ∧ Inv k s' := by
  obtain ⟨ha, hw⟩ := hp
  cases o with
  | make n =>
    refine ⟨_, rfl, ?_, h.tested, ?_, ?_, h.far⟩
    · intro m hm
      by_cases e : m = n
      · subst e; simp
      · simpa [upd_ne _ _ e] using h.slot m hm
    · intro t m hm
      by_cases e : m = n
      · subst e; simp
      · simpa [upd_ne _ _ e] using h.got t m hm
    · intro t m hm
      by_cases e : m = n
      · subst e; simp
      · simpa [upd_ne _ _ e] using h.inside t m hm
  | set n =>
    refine ⟨_, rfl, ?_, fun t _ => ⟨n, rfl⟩, h.got, h.inside, h.far⟩
    intro m hm
    cases hm
    exact ha
  | unset =>
    refine ⟨_, rfl, ?_, ?_, h.got, h.inside, h.far⟩
    · intro m hm; cases hm
    · intro t ht
      have : s.pc t = .tested := ht
      rw [h.quiet hw t] at this; cases this
  | destroy n =>
    refine ⟨{ s with alive := upd s.alive n false, log := .gone n :: s.log }, ?_, ?_, h.tested, ?_, ?_, h.far⟩
    · have hx : s.alive n = true := ha.1
      simp [Notify.step, hx]
    · intro m hm
      have : m ≠ n := by intro e; subst e; exact ha.2 hm
      simpa [upd_ne _ _ this] using h.slot m hm
    · intro t m hm
      have : s.pc t = .got m := hm
      rw [h.quiet hw t] at this; cases this
    · intro t m hm
      have : s.pc t = .inside m := hm
      rw [h.quiet hw t] at this; cases this
  | run t =>
    have ht : t < k := hw
    cases hpc : s.pc t with
    | idle =>
      cases hs : s.slot with
      | none => exact ⟨s, by simp [Notify.step, hpc, hs, test], h⟩
      | some n =>
        exact ⟨{ s with pc := upd s.pc t .tested }, by simp [Notify.step, hpc, hs, test],
          h.move ht (fun _ => ⟨n, hs⟩) (by simp) (by simp)⟩
    | tested =>
      obtain ⟨n, hn⟩ := h.tested t hpc
      exact ⟨{ s with pc := upd s.pc t (.got n) }, by simp [Notify.step, hpc, hn, get],
        h.move ht (by simp) (by simpa using h.slot n hn) (by simp)⟩
    | got n =>
      have hn := h.got t n hpc
      exact ⟨{ s with pc := upd s.pc t (.inside n), log := .enter t n :: s.log }, by simp [Notify.step, hpc, hn],
        h.move ht (by simp) (by simp) (by simpa using hn)⟩
    | inside n =>
      have hn := h.inside t n hpc
      exact ⟨{ s with pc := upd s.pc t .idle, log := .leave t n :: s.log }, by simp [Notify.step, hpc, hn],
        h.move ht (by simp) (by simp) (by simp)⟩

theorem reach_inv {k : Nat} {s : St} (h : Reach step (waiting k) init s) : Inv k s := by
  induction h with
  | start => constructor <;> simp [init]
  | step _ hp he ih =>
    obtain ⟨s', he', hi⟩ := ih.step hp
    rw [he] at he'
    cases he'
    exact hi

/-- C134 (partial: a notificator is unset or destroyed only while no thread is within `notify`; the code offers no way to
wait for that): however any number of notifying threads interleave with the program, no null or dangling notificator is
called.  Setting another notificator at any moment is harmless. -/
theorem C134_safe_partial {k : Nat} {s : St} (h : Reach step (waiting k) init s) {o : Op} (hp : waiting k s o) :
    ∃ s', step s o = .ok s' := by
  obtain ⟨s', he, -⟩ := (reach_inv h).step hp
  exact ⟨s', he⟩

-- two threads notify, and the notificator is replaced while one of them is between its two reads
example : ∃ s, Reach step (waiting 2) init s ∧ (s.log, s.slot) =
    ([.enter 1 8, .enter 0 7, .set 8, .set 7], some 8) :=
  Reach.witness (step := step) (pre := waiting 2) (s₀ := init)
    [.make 7, .make 8, .set 7, .run 0, .run 0, .run 1, .set 8, .run 0, .run 1, .run 1]
    (fun s => (s.log, s.slot)) _ (by decide)

theorem reach_waiting {k : Nat} {s : St} (h : Reach step (still k) init s) : Reach step (waiting k) init s := by
  induction h with
  | start => exact .start
  | step _ hp he ih => exact .step ih hp.1 he

structure Right (s : St) : Prop where
  slot : inForce s.log = s.slot
  got : ∀ t n, s.pc t = .got n → s.slot = some n
  faithful : Faithful s.log

theorem Right.step {k : Nat} {s s' : St} (hi : Inv k s) (h : Right s) {o : Op} (hp : still k s o)
    (he : step s o = .ok s') : Right s' := by
  obtain ⟨⟨ha, hw⟩, hq⟩ := hp
  cases o with
  | make n => cases he; exact ⟨h.slot, h.got, h.faithful⟩
  | set n =>
    cases he
    refine ⟨rfl, ?_, h.faithful⟩
    intro t m hm
    have : s.pc t = .got m := hm
    rw [hi.quiet hq t] at this; cases this
  | unset =>
    cases he
    refine ⟨rfl, ?_, h.faithful⟩
    intro t m hm
    have : s.pc t = .got m := hm
    rw [hi.quiet hw t] at this; cases this
  | destroy n =>
    have hx : s.alive n = true := ha.1
    simp [Notify.step, hx] at he
    cases he
    exact ⟨h.slot, h.got, h.faithful⟩
  | run t =>
    cases hpc : s.pc t with
    | idle =>
      cases hs : s.slot with
      | none => simp [Notify.step, hpc, hs, test] at he; cases he; exact h
      | some n =>
        simp [Notify.step, hpc, hs, test] at he; cases he
        refine ⟨h.slot.trans hs, ?_, h.faithful⟩
        intro u m
        by_cases e : u = t
        · subst e; simp
        · simpa [upd_ne _ _ e, hs] using h.got u m
    | tested =>
      obtain ⟨n, hn⟩ := hi.tested t hpc
      simp [Notify.step, hpc, hn, get] at he; cases he
      refine ⟨h.slot.trans hn, ?_, h.faithful⟩
      intro u m
      by_cases e : u = t
      · subst e; simp
      · simpa [upd_ne _ _ e, hn] using h.got u m
    | got n =>
      have hn := hi.got t n hpc
      simp [Notify.step, hpc, hn] at he; cases he
      refine ⟨h.slot, ?_, ⟨h.slot.trans (h.got t n hpc), h.faithful⟩⟩
      intro u m
      by_cases e : u = t
      · subst e; simp
      · simpa [upd_ne _ _ e] using h.got u m
    | inside n =>
      have hn := hi.inside t n hpc
      simp [Notify.step, hpc, hn] at he; cases he
      refine ⟨h.slot, ?_, h.faithful⟩
      intro u m
      by_cases e : u = t
      · subst e; simp
      · simpa [upd_ne _ _ e] using h.got u m

/-- C134 (partial: notificators are also set only while no thread is within `notify`): every notification reaches the
notificator in force at that moment. -/
theorem C134_faithful_partial {k : Nat} {s : St} (h : Reach step (still k) init s) : Faithful s.log := by
  have : Right s := by
    induction h with
    | start => exact ⟨rfl, by simp [init], trivial⟩
    | step hr hp he ih => exact Right.step (reach_inv (reach_waiting hr)) ih hp he
  exact this.faithful

example : ∃ s, Reach step (still 2) init s ∧ (s.log, s.slot) =
    ([.gone 7, .leave 1 8, .enter 1 8, .set 8, .unset, .leave 0 7, .enter 0 7, .set 7], some 8) :=
  Reach.witness (step := step) (pre := still 2) (s₀ := init)
    [.make 7, .make 8, .set 7, .run 0, .run 0, .run 0, .run 0, .unset, .run 1, .set 8, .run 1, .run 1, .run 1, .run 1,
      .destroy 7]
    (fun s => (s.log, s.slot)) _ (by decide)

/-- C134: a notification nobody interferes with calls the notificator that is set exactly once, and nothing when there is
none. -/
theorem C134_notify_exact (s : St) (t : Nat) (hi : s.pc t = .idle) (ha : ∀ n, s.slot = some n → s.alive n = true) :
    (s.slot = none → step s (.run t) = .ok s) ∧
    (∀ n, s.slot = some n → ∃ s', runOps step s [.run t, .run t, .run t, .run t] = .ok s' ∧
      s'.log = .leave t n :: .enter t n :: s.log ∧ s'.slot = s.slot ∧ s'.alive = s.alive ∧ s'.pc = s.pc) := by
  refine ⟨fun h => by simp [step, hi, h, test], fun n h => ?_⟩
  have hn := ha n h
  refine ⟨{ s with log := .leave t n :: .enter t n :: s.log }, ?_, rfl, rfl, rfl, rfl⟩
  have e : ∀ p q : Pc, upd (upd s.pc t p) t q = upd s.pc t q := by
    intro p q; funext u
    by_cases eu : u = t
    · subst eu; simp
    · simp [upd_ne _ _ eu]
  have e' : upd s.pc t .idle = s.pc := by
    funext u
    by_cases eu : u = t
    · subst eu; simp [hi]
    · simp [upd_ne _ _ eu]
  simp [runOps, step, hi, h, test, get, hn, e, e']

example : ∃ s, Reach step asked init s ∧ (s.pc 0, s.slot, s.alive 7) = (.idle, some 7, true) :=
  Reach.witness (step := step) (pre := asked) (s₀ := init) [.make 7, .set 7] (fun s => (s.pc 0, s.slot, s.alive 7)) _
    (by decide)

/-- C134 (violated): a notificator unset while a thread is between its test of the pointer and its use makes the thread
call through a null pointer. -/
theorem C134_unset_ub {s s' : St} {t : Nat} (ht : s.pc t = .tested) (hu : step s .unset = .ok s') :
    step s' (.run t) = .ub := by
  cases hu
  simp [step, ht, get]

example : ∃ s, Reach step asked init s ∧ s.pc 0 = .tested :=
  Reach.witness (step := step) (pre := asked) (s₀ := init) [.make 7, .set 7, .run 0] (fun s => s.pc 0) _ (by decide)

/-- C134 (violated): a notificator can be called after `unsetNotificator` has returned. -/
theorem C134_late_violated {s : St} {t n : Nat} (ht : s.pc t = .got n) (ha : s.alive n = true) :
    ∃ s₁ s₂, step s .unset = .ok s₁ ∧ step s₁ (.run t) = .ok s₂ ∧ s₂.log = .enter t n :: .unset :: s.log ∧
      ¬ Faithful s₂.log := by
  refine ⟨{ s with slot := none, log := .unset :: s.log },
    { s with slot := none, pc := upd s.pc t (.inside n), log := .enter t n :: .unset :: s.log }, rfl, ?_, rfl, ?_⟩
  · simp [step, ht, ha]
  · simp [Faithful, inForce]

/-- C134 (violated): so a program that unsets its notificator and then destroys it, as the API asks, can have a destroyed
notificator called, or have one destroyed while it is executing. -/
theorem C134_destroy_ub {s : St} {t n : Nat} (ht : s.pc t = .got n ∨ s.pc t = .inside n) (ha : s.alive n = true) :
    ∃ s₁ s₂, step s .unset = .ok s₁ ∧ asked s₁ (.destroy n) ∧ step s₁ (.destroy n) = .ok s₂ ∧
      step s₂ (.run t) = .ub := by
  refine ⟨{ s with slot := none, log := .unset :: s.log },
    { s with slot := none, alive := upd s.alive n false, log := .gone n :: .unset :: s.log }, rfl, ⟨ha, by simp⟩, ?_, ?_⟩
  · simp [step, ha]
  · rcases ht with ht | ht <;> simp [step, ht]

example : ∃ s, Reach step asked init s ∧ (s.pc 0, s.pc 1, s.alive 7) = (.got 7, .inside 7, true) :=
  Reach.witness (step := step) (pre := asked) (s₀ := init) [.make 7, .set 7, .run 0, .run 0, .run 1, .run 1, .run 1]
    (fun s => (s.pc 0, s.pc 1, s.alive 7)) _ (by decide)

/-- C134 (violated when forgotten): destroying a notificator that is still set leaves the next notification to call it. -/
theorem C134_forgotten_ub {s : St} {t n : Nat} (ht : s.pc t = .idle) (hs : s.slot = some n) (ha : s.alive n = true) :
    runOps step s [.destroy n, .run t, .run t, .run t] = .ub := by
  simp [runOps, step, ha, ht, hs, test, get]

namespace Flame
open Own Notify
example := (Reach.witness (step := step) (pre := asked) (s₀ := init) [.make 7, .set 7, .run 0, .run 0, .run 1, .run 1, .run 1]
    (fun s => (s.pc 0, s.pc 1, s.alive 7)) (.got 7, .inside 7, true) (by decide)).imp fun _ h =>
  C134_late_violated (t := 0) (n := 7) (congrArg (·.1) h.2) (congrArg (·.2.2) h.2)
example := (Reach.witness (step := step) (pre := asked) (s₀ := init) [.make 7, .set 7] (fun s => (s.pc 0, s.slot, s.alive 7))
    (.idle, some 7, true) (by decide)).imp fun _ h =>
  C134_forgotten_ub (congrArg (·.1) h.2) (congrArg (·.2.1) h.2) (congrArg (·.2.2) h.2)
end Flame

end Flame.Notify
