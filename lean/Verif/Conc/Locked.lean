import Verif.Conc.Atomic

/-!
# Objects whose methods run under one lock

Model of a class all of whose methods start with `Locker locker{ lock };`
(src/Os/Threads/Utils.cpp 40-64: the constructor locks, the destructor unlocks).  Threads interleave arbitrarily at the
level of single reads and writes of the object's members; between two steps of one thread any number of steps of
other threads may happen, inside the method body included.

Simplifications: the lock itself (pthread spin lock / mutex) is a primitive: `lock` waits until the lock is free and
takes it, `unlock` makes it free whoever calls it.  Memory is sequentially consistent — justified for the accesses made
under the lock, which is what the machine proves them to be.
-/

namespace Flame.Conc
open Flame.Own (upd upd_self upd_ne)

/-- A class: `enter o` is the first program point of method `o`, `body` performs one access to the members and either
moves to the next program point or returns. -/
structure Obj (M L Op Ret : Type) where
  enter : Op → L
  body : L → M → Res (M × (L ⊕ Ret))

inductive TS (L Op Ret : Type) where
  | idle
  /-- called, at `lock()` in the constructor of `Locker` -/
  | waiting (o : Op)
  /-- in the body, `locker` alive -/
  | inside (o : Op) (l : L)
  /-- return value computed, `~Locker` about to run -/
  | leaving (o : Op) (r : Ret)
  /-- `~Locker` has run, about to return -/
  | out (o : Op) (r : Ret)
  deriving DecidableEq

structure St (M L Op Ret : Type) where
  mem : M
  lock : Option Nat
  thr : Nat → TS L Op Ret
  hist : List (Event Op Ret)

variable {M L Op Ret A : Type}

def St.initial (m : M) : St M L Op Ret := { mem := m, lock := none, thr := fun _ => .idle, hist := [] }

/-- One step of thread `t`. -/
inductive Step (obj : Obj M L Op Ret) (allow : Op → Prop) (t : Nat) : St M L Op Ret → St M L Op Ret → Prop
  | call {s} (o : Op) : allow o → s.thr t = .idle →
      Step obj allow t s { s with thr := upd s.thr t (.waiting o), hist := s.hist ++ [.inv t o] }
  | acquire {s} (o : Op) : s.thr t = .waiting o → s.lock = none →
      Step obj allow t s { s with thr := upd s.thr t (.inside o (obj.enter o)), lock := some t }
  | go {s} (o : Op) (l : L) (m' : M) (l' : L) : s.thr t = .inside o l → obj.body l s.mem = .ok (m', .inl l') →
      Step obj allow t s { s with mem := m', thr := upd s.thr t (.inside o l') }
  | finish {s} (o : Op) (l : L) (m' : M) (r : Ret) : s.thr t = .inside o l → obj.body l s.mem = .ok (m', .inr r) →
      Step obj allow t s { s with mem := m', thr := upd s.thr t (.leaving o r) }
  | release {s} (o : Op) (r : Ret) : s.thr t = .leaving o r →
      Step obj allow t s { s with thr := upd s.thr t (.out o r), lock := none }
  | ret {s} (o : Op) (r : Ret) : s.thr t = .out o r →
      Step obj allow t s { s with thr := upd s.thr t .idle, hist := s.hist ++ [.ret t r] }

/-- States reachable from an object `m` no thread is using, by any interleaving of any number of threads calling
operations in `allow`. -/
inductive Run (obj : Obj M L Op Ret) (allow : Op → Prop) (m : M) : St M L Op Ret → Prop
  | start : Run obj allow m (St.initial m)
  | step {s s'} (t : Nat) : Run obj allow m s → Step obj allow t s s' → Run obj allow m s'

/-- Thread `t` is about to do something undefined. -/
def Faults (obj : Obj M L Op Ret) (s : St M L Op Ret) (t : Nat) : Prop :=
  ∃ o l, s.thr t = .inside o l ∧ obj.body l s.mem = .ub

/-- Thread `t` is between the lock and the unlock of `Locker`. -/
def TS.inCritical : TS L Op Ret → Bool
  | .inside _ _ => true
  | .leaving _ _ => true
  | _ => false

/-- The lock is held by exactly the thread that is in its critical section. -/
theorem Run.holder {obj : Obj M L Op Ret} {allow m s} (h : Run obj allow m s) :
    ∀ t, (s.thr t).inCritical = true ↔ s.lock = some t := by
  induction h with
  | start => intro t; simp [St.initial, TS.inCritical]
  | @step s s' u _ hs ihs =>
    intro t
    have ih := ihs t
    by_cases hu : t = u
    · subst hu
      cases hs with
      | call o _ h1 => rw [h1] at ih; simpa [TS.inCritical] using ih
      | acquire o h1 h2 => simp [TS.inCritical]
      | go o l m' l' h1 h2 => rw [h1] at ih; simpa [TS.inCritical] using ih
      | finish o l m' r h1 h2 => rw [h1] at ih; simpa [TS.inCritical] using ih
      | release o r h1 => simp [TS.inCritical]
      | ret o r h1 => rw [h1] at ih; simpa [TS.inCritical] using ih
    · cases hs with
      | call o _ h1 => simpa [upd_ne _ _ hu] using ih
      | acquire o h1 h2 =>
        simp only [upd_ne _ _ hu, ih, h2, Option.some.injEq]
        exact ⟨fun e => (nomatch e), fun e => absurd e.symm hu⟩
      | go o l m' l' h1 h2 => simpa [upd_ne _ _ hu] using ih
      | finish o l m' r h1 h2 => simpa [upd_ne _ _ hu] using ih
      | release o r h1 =>
        simp only [upd_ne _ _ hu, ih]
        have h3 := (ihs u).mp (by rw [h1]; rfl)
        rw [h3]
        exact ⟨fun e => absurd (Option.some.inj e).symm hu, fun e => nomatch e⟩
      | ret o r h1 => simpa [upd_ne _ _ hu] using ih

/-- Critical sections of one lock never overlap. -/
theorem Run.exclusive {obj : Obj M L Op Ret} {allow m s} (h : Run obj allow m s) {t u : Nat}
    (ht : (s.thr t).inCritical = true) (hu : (s.thr u).inCritical = true) : t = u := by
  have e := (h.holder t).mp ht
  rw [(h.holder u).mp hu] at e
  exact (Option.some.inj e).symm

/-- The method bodies, run alone, implement the sequential object `run` through the abstraction `abs`, without undefined
behaviour and in finitely many accesses.  `mid o m₀ l m`: method `o`, started on `m₀`, is at `l` with members `m`. -/
structure Refines (obj : Obj M L Op Ret) (allow : Op → Prop) (run : A → Op → A × Ret) where
  abs : M → A
  inv : M → Prop
  mid : Op → M → L → M → Prop
  left : L → Nat
  enter : ∀ o m, allow o → inv m → mid o m (obj.enter o) m
  safe : ∀ o m₀ l m, inv m₀ → mid o m₀ l m → ∃ p, obj.body l m = .ok p
  go : ∀ o m₀ l m m' l', inv m₀ → mid o m₀ l m → obj.body l m = .ok (m', .inl l') → mid o m₀ l' m' ∧ left l' < left l
  finish : ∀ o m₀ l m m' r, inv m₀ → mid o m₀ l m → obj.body l m = .ok (m', .inr r) →
    inv m' ∧ run (abs m₀) o = (abs m', r)

/-- What the threads look like from outside. -/
def TS.view : TS L Op Ret → Status Op Ret
  | .idle => .idle
  | .waiting o => .pending o
  | .inside o _ => .pending o
  | .leaving _ r => .done r
  | .out _ r => .done r

/-- The simulation: a state of the machine and the abstract object agree. -/
structure Sim {obj : Obj M L Op Ret} {allow : Op → Prop} {run : A → Op → A × Ret} (R : Refines obj allow run)
    (a : A) (s : St M L Op Ret) : Prop where
  quiet : (∀ t o l, s.thr t ≠ .inside o l) → R.inv s.mem ∧ R.abs s.mem = a
  busy : ∀ t o l, s.thr t = .inside o l → ∃ m₀, R.inv m₀ ∧ R.abs m₀ = a ∧ R.mid o m₀ l s.mem
  allowed : ∀ t o, s.thr t = .waiting o → allow o

theorem upd_view {f : Nat → TS L Op Ret} {t : Nat} {x : TS L Op Ret} :
    (fun u => (upd f t x u).view) = upd (fun u => (f u).view) t x.view := by
  funext u
  by_cases h : u = t
  · subst h; simp
  · simp [upd_ne _ _ h]

theorem upd_same {β : Type} {f : Nat → β} {t : Nat} {x : β} (h : f t = x) : upd f t x = f := by
  funext u
  by_cases hu : u = t
  · subst hu; simp [h]
  · simp [upd_ne _ _ hu]

/-- Every interleaving is explained by an atomic object. -/
theorem Run.atomic {obj : Obj M L Op Ret} {allow : Op → Prop} {run : A → Op → A × Ret} (R : Refines obj allow run)
    {m : M} (hm : R.inv m) {s : St M L Op Ret} (h : Run obj allow m s) :
    ∃ a l, Atomic run (R.abs m) s.hist a (fun t => (s.thr t).view) l ∧ Sim R a s := by
  induction h with
  | start =>
    refine ⟨R.abs m, [], .start, ⟨fun _ => ⟨hm, rfl⟩, ?_, ?_⟩⟩
    · intro t o l e; cases e
    · intro t o e; cases e
  | @step s s' u hr hs ih =>
    obtain ⟨a, l, ha, sim⟩ := ih
    have excl : ∀ {t}, (s.thr t).inCritical = true → (s.thr u).inCritical = true → t = u := fun h1 h2 =>
      hr.exclusive h1 h2
    cases hs with
    | call o hal h1 =>
      refine ⟨a, l, ?_, ?_, ?_, ?_⟩
      · simp only [upd_view]
        exact .inv u o ha (by simp [h1, TS.view])
      · intro hq
        refine sim.quiet fun t o' l' e => ?_
        by_cases ht : t = u
        · subst ht; rw [h1] at e; cases e
        · exact hq t o' l' (by simpa [upd_ne _ _ ht] using e)
      · intro t o' l' e
        by_cases ht : t = u
        · subst ht; simp at e
        · exact sim.busy t o' l' (by simpa [upd_ne _ _ ht] using e)
      · intro t o' e
        by_cases ht : t = u
        · subst ht; simp at e; exact e ▸ hal
        · exact sim.allowed t o' (by simpa [upd_ne _ _ ht] using e)
    | acquire o h1 h2 =>
      have hfree : ∀ t o' l', s.thr t ≠ .inside o' l' := by
        intro t o' l' e
        have := (hr.holder t).mp (by rw [e]; rfl)
        rw [h2] at this; cases this
      obtain ⟨q1, q2⟩ := sim.quiet hfree
      refine ⟨a, l, ?_, ?_, ?_, ?_⟩
      · simp only [upd_view]
        rw [upd_same (by simp [h1, TS.view])]
        exact ha
      · intro hq
        exact absurd (upd_self ..) (hq u o (obj.enter o))
      · intro t o' l' e
        by_cases ht : t = u
        · subst ht
          simp at e
          obtain ⟨rfl, rfl⟩ := e
          exact ⟨s.mem, q1, q2, R.enter o s.mem (sim.allowed t o h1) q1⟩
        · exact absurd (by simpa [upd_ne _ _ ht] using e) (hfree t o' l')
      · intro t o' e
        by_cases ht : t = u
        · subst ht; simp at e
        · exact sim.allowed t o' (by simpa [upd_ne _ _ ht] using e)
    | go o l1 m' l' h1 h2 =>
      refine ⟨a, l, ?_, ?_, ?_, ?_⟩
      · simp only [upd_view]
        rw [upd_same (by simp [h1, TS.view])]
        exact ha
      · intro hq
        exact absurd (upd_self ..) (hq u o l')
      · intro t o' l2 e
        by_cases ht : t = u
        · subst ht
          simp at e
          obtain ⟨rfl, rfl⟩ := e
          obtain ⟨m₀, b1, b2, b3⟩ := sim.busy t o l1 h1
          exact ⟨m₀, b1, b2, (R.go o m₀ l1 s.mem m' l' b1 b3 h2).1⟩
        · have e' : s.thr t = .inside o' l2 := by simpa [upd_ne _ _ ht] using e
          exact absurd (excl (by rw [e']; rfl) (by rw [h1]; rfl)) ht
      · intro t o' e
        by_cases ht : t = u
        · subst ht; simp at e
        · exact sim.allowed t o' (by simpa [upd_ne _ _ ht] using e)
    | finish o l1 m' r h1 h2 =>
      obtain ⟨m₀, b1, b2, b3⟩ := sim.busy u o l1 h1
      obtain ⟨f1, f2⟩ := R.finish o m₀ l1 s.mem m' r b1 b3 h2
      rw [b2] at f2
      refine ⟨R.abs m', l ++ [(u, o, r)], ?_, ?_, ?_, ?_⟩
      · simp only [upd_view]
        have := Atomic.effect u o ha (by simp [h1, TS.view])
        rw [f2] at this
        exact this
      · intro _
        exact ⟨f1, rfl⟩
      · intro t o' l2 e
        by_cases ht : t = u
        · subst ht; simp at e
        · have e' : s.thr t = .inside o' l2 := by simpa [upd_ne _ _ ht] using e
          exact absurd (excl (by rw [e']; rfl) (by rw [h1]; rfl)) ht
      · intro t o' e
        by_cases ht : t = u
        · subst ht; simp at e
        · exact sim.allowed t o' (by simpa [upd_ne _ _ ht] using e)
    | release o r h1 =>
      refine ⟨a, l, ?_, ?_, ?_, ?_⟩
      · simp only [upd_view]
        rw [upd_same (by simp [h1, TS.view])]
        exact ha
      · intro hq
        refine sim.quiet fun t o' l' e => ?_
        by_cases ht : t = u
        · subst ht; rw [h1] at e; cases e
        · exact hq t o' l' (by simpa [upd_ne _ _ ht] using e)
      · intro t o' l' e
        by_cases ht : t = u
        · subst ht; simp at e
        · exact sim.busy t o' l' (by simpa [upd_ne _ _ ht] using e)
      · intro t o' e
        by_cases ht : t = u
        · subst ht; simp at e
        · exact sim.allowed t o' (by simpa [upd_ne _ _ ht] using e)
    | ret o r h1 =>
      refine ⟨a, l, ?_, ?_, ?_, ?_⟩
      · simp only [upd_view]
        exact .ret u r ha (by simp [h1, TS.view])
      · intro hq
        refine sim.quiet fun t o' l' e => ?_
        by_cases ht : t = u
        · subst ht; rw [h1] at e; cases e
        · exact hq t o' l' (by simpa [upd_ne _ _ ht] using e)
      · intro t o' l' e
        by_cases ht : t = u
        · subst ht; simp at e
        · exact sim.busy t o' l' (by simpa [upd_ne _ _ ht] using e)
      · intro t o' e
        by_cases ht : t = u
        · subst ht; simp at e
        · exact sim.allowed t o' (by simpa [upd_ne _ _ ht] using e)

theorem Run.linearizable {obj : Obj M L Op Ret} {allow : Op → Prop} {run : A → Op → A × Ret} (R : Refines obj allow run)
    {m : M} (hm : R.inv m) {s : St M L Op Ret} (h : Run obj allow m s) : Linearizable run (R.abs m) s.hist := by
  obtain ⟨a, l, ha, _⟩ := h.atomic R hm
  exact ⟨a, _, l, ha⟩

/-- No thread ever does anything undefined. -/
theorem Run.noFault {obj : Obj M L Op Ret} {allow : Op → Prop} {run : A → Op → A × Ret} (R : Refines obj allow run)
    {m : M} (hm : R.inv m) {s : St M L Op Ret} (h : Run obj allow m s) (t : Nat) : ¬ Faults obj s t := by
  rintro ⟨o, l, h1, h2⟩
  obtain ⟨a, _, _, sim⟩ := h.atomic R hm
  obtain ⟨m₀, b1, _, b3⟩ := sim.busy t o l h1
  obtain ⟨p, hp⟩ := R.safe o m₀ l s.mem b1 b3
  rw [h2] at hp; cases hp

/-- `s` can reach `s'` by steps of thread `t` alone. -/
inductive Alone (obj : Obj M L Op Ret) (t : Nat) : St M L Op Ret → St M L Op Ret → Prop
  | refl {s} : Alone obj t s s
  | step {s s' s''} : Alone obj t s s' → Step obj (fun _ => False) t s' s'' → Alone obj t s s''

theorem Alone.head {obj : Obj M L Op Ret} {t s s' s''} (h1 : Step obj (fun _ => False) t s s')
    (h2 : Alone obj t s' s'') : Alone obj t s s'' := by
  induction h2 with
  | refl => exact .step .refl h1
  | step _ hs ih => exact .step ih hs

theorem Alone.trans {obj : Obj M L Op Ret} {t s s' s''} (h1 : Alone obj t s s')
    (h2 : Alone obj t s' s'') : Alone obj t s s'' := by
  induction h2 with
  | refl => exact h1
  | step _ hs ih => exact .step ih hs

theorem Step.widen {obj : Obj M L Op Ret} {allow : Op → Prop} {t s s'} (h : Step obj (fun _ => False) t s s') :
    Step obj allow t s s' := by
  cases h with
  | call o h _ => exact h.elim
  | acquire o h1 h2 => exact .acquire o h1 h2
  | go o l m' l' h1 h2 => exact .go o l m' l' h1 h2
  | finish o l m' r h1 h2 => exact .finish o l m' r h1 h2
  | release o r h1 => exact .release o r h1
  | ret o r h1 => exact .ret o r h1

theorem Run.alone {obj : Obj M L Op Ret} {allow m t s s'} (h : Run obj allow m s) (h2 : Alone obj t s s') :
    Run obj allow m s' := by
  induction h2 with
  | refl => exact h
  | step _ hs ih => exact .step t ih hs.widen

/-- The thread holding the lock, or any thread when the lock is free, finishes its operation by its own steps alone:
it never needs another thread to move.  So there is no deadlock, and an operation is delayed only by operations of
other threads that hold the lock. -/
theorem Run.completes {obj : Obj M L Op Ret} {allow : Op → Prop} {run : A → Op → A × Ret} (R : Refines obj allow run)
    {m : M} (hm : R.inv m) {s : St M L Op Ret} (h : Run obj allow m s) {t : Nat}
    (hl : s.lock = none ∨ s.lock = some t) :
    ∃ s', Alone obj t s s' ∧ s'.thr t = .idle ∧ s'.lock = none ∧ ∀ u, u ≠ t → s'.thr u = s.thr u := by
  have k1 : ∀ {s : St M L Op Ret}, (∃ o r, s.thr t = .out o r) → s.lock = none →
      ∃ s', Alone obj t s s' ∧ s'.thr t = .idle ∧ s'.lock = none ∧ ∀ u, u ≠ t → s'.thr u = s.thr u := by
    rintro s ⟨o, r, e⟩ hl
    exact ⟨_, .step .refl (.ret o r e), by simp, hl, fun u hu => by simp [upd_ne _ _ hu]⟩
  have k2 : ∀ {s : St M L Op Ret}, (∃ o r, s.thr t = .leaving o r) →
      ∃ s', Alone obj t s s' ∧ s'.thr t = .idle ∧ s'.lock = none ∧ ∀ u, u ≠ t → s'.thr u = s.thr u := by
    rintro s ⟨o, r, e⟩
    have st := Step.release (obj := obj) (allow := fun _ => False) (s := s) o r e
    obtain ⟨s', a1, a2, a3, a4⟩ := k1 (s := { s with thr := upd s.thr t (.out o r), lock := none })
      ⟨o, r, by simp⟩ rfl
    exact ⟨s', .head st a1, a2, a3, fun u hu => by rw [a4 u hu]; simp [upd_ne _ _ hu]⟩
  have k3 : ∀ (n : Nat) {s : St M L Op Ret} {o l m₀}, s.thr t = .inside o l → R.inv m₀ → R.mid o m₀ l s.mem →
      R.left l ≤ n →
      ∃ s', Alone obj t s s' ∧ s'.thr t = .idle ∧ s'.lock = none ∧ ∀ u, u ≠ t → s'.thr u = s.thr u := by
    intro n
    induction n with
    | zero =>
      intro s o l m₀ e hi hmid hn
      obtain ⟨⟨m', p⟩, hp⟩ := R.safe o m₀ l s.mem hi hmid
      cases p with
      | inl l' =>
        have := (R.go o m₀ l s.mem m' l' hi hmid hp).2
        omega
      | inr r =>
        obtain ⟨s', a1, a2, a3, a4⟩ := k2 (s := { s with mem := m', thr := upd s.thr t (.leaving o r) })
          ⟨o, r, by simp⟩
        exact ⟨s', .head (.finish o l m' r e hp) a1, a2, a3, fun u hu => by rw [a4 u hu]; simp [upd_ne _ _ hu]⟩
    | succ n ih =>
      intro s o l m₀ e hi hmid hn
      obtain ⟨⟨m', p⟩, hp⟩ := R.safe o m₀ l s.mem hi hmid
      cases p with
      | inl l' =>
        obtain ⟨g1, g2⟩ := R.go o m₀ l s.mem m' l' hi hmid hp
        obtain ⟨s', a1, a2, a3, a4⟩ := ih (s := { s with mem := m', thr := upd s.thr t (.inside o l') })
          (o := o) (l := l') (m₀ := m₀) (by simp) hi g1 (by omega)
        exact ⟨s', .head (.go o l m' l' e hp) a1, a2, a3, fun u hu => by rw [a4 u hu]; simp [upd_ne _ _ hu]⟩
      | inr r =>
        obtain ⟨s', a1, a2, a3, a4⟩ := k2 (s := { s with mem := m', thr := upd s.thr t (.leaving o r) })
          ⟨o, r, by simp⟩
        exact ⟨s', .head (.finish o l m' r e hp) a1, a2, a3, fun u hu => by rw [a4 u hu]; simp [upd_ne _ _ hu]⟩
  obtain ⟨a, _, _, sim⟩ := h.atomic R hm
  have hh := h.holder t
  cases e : s.thr t with
  | idle =>
    rw [e] at hh
    rcases hl with hl | hl
    · exact ⟨s, .refl, e, hl, fun _ _ => rfl⟩
    · simp [TS.inCritical, hl] at hh
  | waiting o =>
    rw [e] at hh
    rcases hl with hl | hl
    · have hfree : ∀ t o' l', s.thr t ≠ .inside o' l' := by
        intro t o' l' e
        have := (h.holder t).mp (by rw [e]; rfl)
        rw [hl] at this; cases this
      obtain ⟨q1, q2⟩ := sim.quiet hfree
      obtain ⟨s', a1, a2, a3, a4⟩ := k3 (R.left (obj.enter o))
        (s := { s with thr := upd s.thr t (.inside o (obj.enter o)), lock := some t })
        (o := o) (l := obj.enter o) (m₀ := s.mem) (by simp) q1 (R.enter o s.mem (sim.allowed t o e) q1) (by omega)
      exact ⟨s', .head (.acquire o e hl) a1, a2, a3, fun u hu => by rw [a4 u hu]; simp [upd_ne _ _ hu]⟩
    · simp [TS.inCritical, hl] at hh
  | inside o l =>
    obtain ⟨m₀, b1, _, b3⟩ := sim.busy t o l e
    exact k3 (R.left l) e b1 b3 (by omega)
  | leaving o r => exact k2 ⟨o, r, e⟩
  | out o r =>
    rw [e] at hh
    rcases hl with hl | hl
    · exact k1 ⟨o, r, e⟩ hl
    · simp [TS.inCritical, hl] at hh

/-- A method run from program point `l` to its end with nobody else running. -/
def Obj.exec (obj : Obj M L Op Ret) : Nat → L → M → Res (M × Ret)
  | 0, _, _ => .loop
  | f + 1, l, m => match obj.body l m with
    | .ok (m', .inl l') => Obj.exec obj f l' m'
    | .ok (m', .inr r) => .ok (m', r)
    | .ub => .ub
    | .loop => .loop

theorem Refines.exec_mid {obj : Obj M L Op Ret} {allow : Op → Prop} {run : A → Op → A × Ret} (R : Refines obj allow run)
    {o : Op} {m₀ : M} (hi : R.inv m₀) {f : Nat} {l : L} {m : M} (hmid : R.mid o m₀ l m) (hf : R.left l < f) :
    ∃ m' r, obj.exec f l m = .ok (m', r) ∧ R.inv m' ∧ run (R.abs m₀) o = (R.abs m', r) := by
  induction f generalizing l m with
  | zero => omega
  | succ f ih =>
    obtain ⟨⟨m', p⟩, hp⟩ := R.safe o m₀ l m hi hmid
    cases p with
    | inl l' =>
      obtain ⟨g1, g2⟩ := R.go o m₀ l m m' l' hi hmid hp
      simp only [Obj.exec, hp]
      exact ih g1 (by omega)
    | inr r =>
      simp only [Obj.exec, hp]
      exact ⟨m', r, rfl, R.finish o m₀ l m m' r hi hmid hp⟩

/-- Run alone, a method does what the sequential object does. -/
theorem Refines.exec {obj : Obj M L Op Ret} {allow : Op → Prop} {run : A → Op → A × Ret} (R : Refines obj allow run)
    {o : Op} (ho : allow o) {m : M} (hi : R.inv m) {f : Nat} (hf : R.left (obj.enter o) < f) :
    ∃ m' r, obj.exec f (obj.enter o) m = .ok (m', r) ∧ R.inv m' ∧ run (R.abs m) o = (R.abs m', r) :=
  R.exec_mid hi (R.enter o m ho hi) hf

/-- The (only) next step of thread `t`; an idle thread calls `o`. -/
def move (obj : Obj M L Op Ret) (s : St M L Op Ret) (t : Nat) (o : Option Op) : Option (St M L Op Ret) :=
  match s.thr t with
  | .idle => match o with
    | some o => some { s with thr := upd s.thr t (.waiting o), hist := s.hist ++ [.inv t o] }
    | none => none
  | .waiting o => match s.lock with
    | none => some { s with thr := upd s.thr t (.inside o (obj.enter o)), lock := some t }
    | some _ => none
  | .inside o l => match obj.body l s.mem with
    | .ok (m', .inl l') => some { s with mem := m', thr := upd s.thr t (.inside o l') }
    | .ok (m', .inr r) => some { s with mem := m', thr := upd s.thr t (.leaving o r) }
    | _ => none
  | .leaving o r => some { s with thr := upd s.thr t (.out o r), lock := none }
  | .out _ r => some { s with thr := upd s.thr t .idle, hist := s.hist ++ [.ret t r] }

theorem move_step {obj : Obj M L Op Ret} {allow : Op → Prop} {s s' : St M L Op Ret} {t : Nat} {o : Option Op}
    (ha : ∀ o', o = some o' → allow o') (h : move obj s t o = some s') : Step obj allow t s s' := by
  simp only [move] at h
  split at h
  · rename_i e
    cases o with
    | none => cases h
    | some o => cases h; exact .call o (ha o rfl) e
  · rename_i o' e
    split at h
    · rename_i el; cases h; exact .acquire o' e el
    · cases h
  · rename_i o' l e
    split at h
    · rename_i m' l' eb; cases h; exact .go o' l m' l' e eb
    · rename_i m' r eb; cases h; exact .finish o' l m' r e eb
    · cases h
  · rename_i o' r e; cases h; exact .release o' r e
  · rename_i o' r e; cases h; exact .ret o' r e

/-- A given interleaving. -/
def play (obj : Obj M L Op Ret) : St M L Op Ret → List (Nat × Option Op) → Option (St M L Op Ret)
  | s, [] => some s
  | s, (t, o) :: ms => (move obj s t o).bind fun s' => play obj s' ms

theorem Run.play {obj : Obj M L Op Ret} {allow : Op → Prop} {m : M} {s s' : St M L Op Ret}
    {ms : List (Nat × Option Op)} (h : Run obj allow m s) (ha : ∀ p ∈ ms, ∀ o' ∈ p.2, allow o')
    (hp : play obj s ms = some s') : Run obj allow m s' := by
  induction ms generalizing s with
  | nil => cases hp; exact h
  | cons p ms ih =>
    obtain ⟨t, o⟩ := p
    simp only [Conc.play, Option.bind_eq_some_iff] at hp
    obtain ⟨s1, h1, h2⟩ := hp
    exact ih (.step t h (move_step (fun o' e => ha (t, o) (by simp) o' e) h1)) (fun p hp => ha p (by simp [hp])) h2

/-- Concrete executions: an interleaving and what is observed at its end. -/
theorem Run.witness {β : Type} {obj : Obj M L Op Ret} {allow : Op → Prop} {m : M} (ms : List (Nat × Option Op))
    (f : St M L Op Ret → β) (b : β) (ha : ∀ p ∈ ms, ∀ o' ∈ p.2, allow o')
    (h : (Conc.play obj (St.initial m) ms).map f = some b) : ∃ s, Run obj allow m s ∧ f s = b := by
  cases e : Conc.play obj (St.initial m) ms with
  | none => rw [e] at h; cases h
  | some s =>
    rw [e] at h
    exact ⟨s, Run.start.play ha e, Option.some.inj h⟩

end Flame.Conc
