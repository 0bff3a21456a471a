import Verif.Conc.Queue
import Verif.Conc.QueueProps

/-!
# Network signals — src/Os/Posix/Async/Network/EventCatcher.cpp 91-152

The handler of `SIGPOLL` runs on top of some thread of the process, which does not move until the handler returns, and
pushes one value into one of the queues (117-152).  `SIGPOLL` is blocked while its handler runs (`sa_mask`, 70-85),
so handlers do not nest on one thread, but several threads may be interrupted at the same time.

Thread `t` is context `2 t` of the machine, a handler running on top of it is context `2 t + 1`; `sig t` tells whether
there is one.  One queue is modelled (each kind has its own lock); the system calls that classify the descriptor and the
user's notificator are not.
-/

namespace Flame.Conc.Signal
open Flame.Own (upd upd_self upd_ne)
open Queue

structure State (V : Type) where
  q : St (Q V) (L V) (Op V) (Ret V)
  sig : Nat → Bool

variable {V : Type}

inductive Next (n : Nat) : State V → State V → Prop
  /-- a thread moves: only if no handler runs on top of it -/
  | thread {s q'} (t : Nat) : s.sig t = false → Step (obj n) notInit (2 * t) s.q q' → Next n s { s with q := q' }
  /-- a signal arrives on thread `t`, at any point of its program: the handler calls `push(v)` -/
  | deliver {s} (t : Nat) (v : V) : s.sig t = false → Next n s
      { q := { s.q with thr := upd s.q.thr (2 * t + 1) (.waiting (.push v)), hist := s.q.hist ++ [.inv (2 * t + 1) (.push v)] }
        sig := upd s.sig t true }
  /-- the handler moves -/
  | handler {s q'} (t : Nat) : s.sig t = true → Step (obj n) (fun _ => False) (2 * t + 1) s.q q' →
      q'.thr (2 * t + 1) ≠ .idle → Next n s { s with q := q' }
  /-- the handler returns, the thread continues -/
  | done {s q'} (t : Nat) : s.sig t = true → Step (obj n) (fun _ => False) (2 * t + 1) s.q q' →
      q'.thr (2 * t + 1) = .idle → Next n s { q := q', sig := upd s.sig t false }

/-- `s'` is reached from `s` by any interleaving of threads, signals and handlers. -/
inductive Reaches (n : Nat) (s : State V) : State V → Prop
  | refl : Reaches n s s
  | step {s' s''} : Reaches n s s' → Next n s' s'' → Reaches n s s''

theorem Reaches.trans {n : Nat} {s s' s'' : State V} (h1 : Reaches n s s') (h2 : Reaches n s' s'') : Reaches n s s'' := by
  induction h2 with
  | refl => exact h1
  | step _ hs ih => exact .step ih hs

/-- The program at its start: an initialised queue. -/
def initial (n : Nat) (iv : V) : State V := { q := St.initial (Q.inited n iv), sig := fun _ => false }

end Flame.Conc.Signal

namespace Flame
open Conc Conc.Queue Conc.Signal
open Flame.Own (upd upd_self upd_ne)

namespace SignalLemmas
variable {V : Type} {n : Nat} {iv : V}

structure Good (n : Nat) (iv : V) (s : State V) : Prop where
  run : Run (Queue.obj n) notInit (Q.inited n iv) s.q
  handler : ∀ t, s.q.thr (2 * t + 1) ≠ .idle ↔ s.sig t = true

theorem step_other {M L Op Ret : Type} {obj : Obj M L Op Ret} {allow : Op → Prop} {c d : Nat} {s s' : St M L Op Ret}
    (h : Step obj allow c s s') (hd : d ≠ c) : s'.thr d = s.thr d := by
  cases h <;> simp [upd_ne _ _ hd]

theorem good_step {s s' : State V} (h : Good n iv s) (hs : Next n s s') : Good n iv s' := by
  cases hs with
  | thread t h1 h2 =>
    refine ⟨.step _ h.run h2, fun u => ?_⟩
    rw [step_other h2 (by omega)]
    exact h.handler u
  | deliver t v h1 =>
    refine ⟨.step (2 * t + 1) h.run (Step.call (s := s.q) (Queue.Op.push v) (show notInit (Queue.Op.push v) from trivial) ?_), fun u => ?_⟩
    · have := h.handler t
      rw [h1] at this
      exact Classical.byContradiction fun hn => absurd (this.mp hn) (by simp)
    · by_cases hu : u = t
      · subst hu; simp
      · simp only [upd_ne _ _ hu, upd_ne _ _ (show 2 * u + 1 ≠ 2 * t + 1 by omega)]
        exact h.handler u
  | handler t h1 h2 h3 =>
    refine ⟨.step _ h.run h2.widen, fun u => ?_⟩
    by_cases hu : u = t
    · subst hu; exact ⟨fun _ => h1, fun _ => h3⟩
    · rw [step_other h2 (show 2 * u + 1 ≠ 2 * t + 1 by omega)]
      exact h.handler u
  | done t h1 h2 h3 =>
    refine ⟨.step _ h.run h2.widen, fun u => ?_⟩
    by_cases hu : u = t
    · subst hu; simp [h3]
    · rw [step_other h2 (show 2 * u + 1 ≠ 2 * t + 1 by omega)]
      simp only [upd_ne _ _ hu]
      exact h.handler u

theorem good_initial : Good n iv (initial n iv) := ⟨.start, fun t => by simp [initial, St.initial]⟩

theorem good_reaches {s s' : State V} (h : Good n iv s) (hr : Reaches n s s') : Good n iv s' := by
  induction hr with
  | refl => exact h
  | step _ hs ih => exact good_step ih hs

/-- Handler of `t` waiting for the lock that thread `t` holds. -/
def Stuck (s : State V) (t : Nat) (v : V) : Prop :=
  s.sig t = true ∧ s.q.thr (2 * t + 1) = .waiting (.push v) ∧ s.q.lock = some (2 * t)

theorem stuck_step {s s' : State V} {t : Nat} {v : V} (hg : Good n iv s) (h : Stuck s t v) (hs : Next n s s') :
    Stuck s' t v := by
  obtain ⟨a1, a2, a3⟩ := h
  have hold : ∀ {c q'} {allow : Queue.Op V → Prop}, c ≠ 2 * t → Step (Queue.obj n) allow c s.q q' →
      q'.lock = some (2 * t) := by
    intro c q' allow hc hst
    cases hst with
    | call => exact a3
    | acquire o h1 h2 => rw [a3] at h2; cases h2
    | go => exact a3
    | finish => exact a3
    | release o r h1 =>
      have := (hg.run.holder c).mp (by rw [h1]; rfl)
      rw [a3] at this
      exact absurd (Option.some.inj this).symm hc
    | ret => exact a3
  have noacq : ∀ {q'}, Step (Queue.obj n) (fun _ => False) (2 * t + 1) s.q q' → False := by
    intro q' hst
    cases hst with
    | call o ha _ => exact ha
    | acquire o h1 h2 => rw [a3] at h2; cases h2
    | go o l m' l' h1 => rw [a2] at h1; cases h1
    | finish o l m' r h1 => rw [a2] at h1; cases h1
    | release o r h1 => rw [a2] at h1; cases h1
    | ret o r h1 => rw [a2] at h1; cases h1
  cases hs with
  | thread u h1 h2 =>
    have hu : u ≠ t := fun e => by rw [e, a1] at h1; cases h1
    exact ⟨a1, by rw [step_other h2 (by omega)]; exact a2, hold (by omega) h2⟩
  | deliver u w h1 =>
    have hu : t ≠ u := fun e => by rw [← e, a1] at h1; cases h1
    refine ⟨by simp only [upd_ne _ _ hu]; exact a1, ?_, a3⟩
    simp only [upd_ne _ _ (show 2 * t + 1 ≠ 2 * u + 1 by omega)]
    exact a2
  | handler u h1 h2 h3 =>
    by_cases hu : u = t
    · subst hu; exact (noacq h2).elim
    · exact ⟨a1, by rw [step_other h2 (by omega)]; exact a2, hold (by omega) h2⟩
  | done u h1 h2 h3 =>
    by_cases hu : u = t
    · subst hu; exact (noacq h2).elim
    · exact ⟨by simp only [upd_ne _ _ (Ne.symm hu)]; exact a1, by rw [step_other h2 (by omega)]; exact a2,
        hold (by omega) h2⟩

theorem reaches_thread {s : State V} {t : Nat} {q'} (h0 : s.sig t = false) (h : Alone (Queue.obj n) (2 * t) s.q q') :
    Reaches n s { s with q := q' } := by
  induction h with
  | refl => exact .refl
  | step _ hs ih => exact .step ih (.thread (s := { s with q := _ }) t h0 hs.widen)

theorem reaches_handler {s : State V} {t : Nat} {q q'} (h0 : s.sig t = true) (h : Alone (Queue.obj n) (2 * t + 1) q q') :
    q = s.q → q.thr (2 * t + 1) ≠ .idle →
    (q'.thr (2 * t + 1) ≠ .idle → Reaches n s { s with q := q' }) ∧
    (q'.thr (2 * t + 1) = .idle → Reaches n s { q := q', sig := upd s.sig t false }) := by
  induction h with
  | refl => rintro rfl hn; exact ⟨fun _ => .refl, fun e => absurd e hn⟩
  | @step s1 s2 h1 hs ih =>
    intro hq hn
    have hne : s1.thr (2 * t + 1) ≠ .idle := by
      cases hs with
      | call o ha _ => exact ha.elim
      | acquire o h1 h2 => rw [h1]; exact fun e => (nomatch e)
      | go o l m' l' h1 => rw [h1]; exact fun e => (nomatch e)
      | finish o l m' r h1 => rw [h1]; exact fun e => (nomatch e)
      | release o r h1 => rw [h1]; exact fun e => (nomatch e)
      | ret o r h1 => rw [h1]; exact fun e => (nomatch e)
    have hr := (ih hq hn).1 hne
    exact ⟨fun e => .step hr (.handler (s := { s with q := s1 }) t h0 hs e),
      fun e => .step hr (.done (s := { s with q := s1 }) t h0 hs e)⟩

end SignalLemmas
open SignalLemmas QueueLemmas

/-- C38 violated: at every point at which a thread is inside one of the queue's methods — it holds the queue's lock — the
arrival of a signal for that queue stops the process' use of it for good: in every continuation, whatever the other
threads do, the handler never gets the lock, the thread never continues and nobody else ever gets the lock. -/
theorem C38_deadlock {V : Type} {n : Nat} {iv : V} {s : State V} (h : Reaches n (initial n iv) s) {t : Nat}
    (hcrit : (s.q.thr (2 * t)).inCritical = true) (hs : s.sig t = false) (v : V) :
    ∃ s₁, Next n s s₁ ∧ ∀ s₂, Reaches n s₁ s₂ →
      s₂.sig t = true ∧ s₂.q.thr (2 * t + 1) = .waiting (.push v) ∧ s₂.q.lock = some (2 * t) := by
  have hg := good_reaches good_initial h
  have hd := Next.deliver (n := n) (s := s) t v hs
  refine ⟨_, hd, fun s₂ hr => ?_⟩
  have hg1 := good_step hg hd
  have st0 : Stuck { q := { s.q with thr := upd s.q.thr (2 * t + 1) (.waiting (.push v)),
                                     hist := s.q.hist ++ [.inv (2 * t + 1) (.push v)] }
                     sig := upd s.sig t true } t v :=
    ⟨by simp, by simp, (hg.run.holder (2 * t)).mp hcrit⟩
  suffices H : Good n iv s₂ ∧ Stuck s₂ t v from H.2
  induction hr with
  | refl => exact ⟨hg1, st0⟩
  | step _ hst ih => exact ⟨good_step ih.1 hst, stuck_step ih.1 ih.2 hst⟩

/-- Such points exist: a thread in the middle of `pop`. -/
example : ∃ s : State Nat, Reaches 2 (initial 2 0) s ∧ (s.q.thr (2 * 0)).inCritical = true ∧ s.sig 0 = false := by
  refine ⟨_, .step (.step .refl (.thread 0 rfl (.call (.pop 0) (show notInit (.pop 0) from trivial) rfl)))
    (.thread 0 rfl (.acquire (.pop 0) (by simp [initial, St.initial]) rfl)), ?_, rfl⟩
  simp [TS.inCritical]

/-- C38 (partial: no interrupted thread holds the lock): a delivery in progress can always be completed — the lock's
holder, if any, is not interrupted (or is itself a handler) and finishes alone, then the handler does. -/
theorem C38_completes_partial {V : Type} {n : Nat} (hn : 0 < n) {iv : V} {s : State V} (h : Reaches n (initial n iv) s)
    {t : Nat} (ht : s.sig t = true) (hfree : ∀ u, s.q.lock = some (2 * u) → s.sig u = false) :
    ∃ s', Reaches n s s' ∧ s'.sig t = false := by
  have hg := good_reaches good_initial h
  -- once the lock is free, the handler finishes
  have fin : ∀ {s : State V}, Good n iv s → s.sig t = true → s.q.lock = none → ∃ s', Reaches n s s' ∧ s'.sig t = false := by
    intro s hg ht hl
    obtain ⟨q', a1, a2, a3, _⟩ := hg.run.completes (refines V n) (ok_inited hn iv) (t := 2 * t + 1) (.inl hl)
    exact ⟨_, (reaches_handler ht a1 rfl ((hg.handler t).mpr ht)).2 a2, by simp⟩
  cases hl : s.q.lock with
  | none => exact fin hg ht hl
  | some c =>
    obtain ⟨q', a1, a2, a3, a4⟩ := hg.run.completes (refines V n) (ok_inited hn iv) (t := c) (.inr hl)
    rcases Nat.even_or_odd' c with ⟨u, rfl | rfl⟩
    · have hr := reaches_thread (hfree u hl) a1
      obtain ⟨s', b1, b2⟩ := fin (s := { s with q := q' }) (good_reaches hg hr) ht a3
      exact ⟨s', hr.trans b1, b2⟩
    · have hsu : s.sig u = true := by
        refine (hg.handler u).mp fun e => ?_
        have := (hg.run.holder (2 * u + 1)).mpr hl
        rw [e] at this; cases this
      have hr := (reaches_handler hsu a1 rfl ((hg.handler u).mpr hsu)).2 a2
      by_cases hu : u = t
      · subst hu; exact ⟨_, hr, by simp⟩
      · obtain ⟨s', b1, b2⟩ := fin (s := { q := q', sig := upd s.sig u false }) (good_reaches hg hr)
          (by simp only [upd_ne _ _ (Ne.symm hu)]; exact ht) a3
        exact ⟨s', hr.trans b1, b2⟩

/-- The hypotheses are met: a signal interrupts an idle thread while another thread is inside `pop`. -/
example : ∃ s : State Nat, Reaches 2 (initial 2 0) s ∧ s.sig 0 = true ∧ s.q.lock = some 2 ∧
    ∀ u, s.q.lock = some (2 * u) → s.sig u = false := by
  refine ⟨_, .step (.step (.step .refl (.thread 1 rfl (.call (.pop 0) (show notInit (.pop 0) from trivial) rfl)))
    (.thread 1 rfl (.acquire (.pop 0) (by simp [initial, St.initial]) rfl))) (.deliver 0 7 rfl), by simp, rfl, ?_⟩
  intro u e
  have : u = 1 := by simp at e; omega
  subst this
  rfl

/-- C38: whatever threads and handlers do, the queue itself stays a correct FIFO. -/
theorem C38_queue_intact {V : Type} {n : Nat} (hn : 0 < n) {iv : V} {s : State V} (h : Reaches n (initial n iv) s) :
    Linearizable (fifo n) [] s.q.hist :=
  C36_linearizable hn iv (good_reaches good_initial h).run

namespace Flame
open Conc Conc.Queue Conc.Signal
example := C38_queue_intact (n := 2) (by decide) (iv := 0) (.step .refl (.thread 0 rfl (.call (Queue.Op.pop 0) trivial rfl)))
end Flame

end Flame
