import Verif.Conc.Race
import Verif.Conc.Counter
import Verif.Conc.Queue
import Verif.Conc.CondVar
import Verif.Notify.Model
import Verif.Win.Startup

/-!
# C174: data races

Which of the library's classes can be used by several threads without a data race in the sense of `Conc/Race`.  Every execution of the models
`Conc/Locked`, `Conc/CondVar`, `Notify/Model` and `Win/Startup` is given its trace.
-/

namespace Flame.Conc
open Race

variable {M L Op Ret : Type}

/-- What a thread of `Conc/Locked` does in its next step (src/Os/Threads/Utils.cpp 40-64): lock 0 is the object's; every access of a method body counts as
a write of the one variable 0, the object's members. -/
def TS.acts (t : Nat) : TS L Op Ret → Trace
  | .idle => []
  | .waiting _ => [(t, .acq 0)]
  | .inside _ _ => [(t, .write 0)]
  | .leaving _ _ => [(t, .rel 0)]
  | .out _ _ => []

/-- `Run` with its trace. -/
inductive Traced (obj : Obj M L Op Ret) (allow : Op → Prop) (m : M) : St M L Op Ret → Trace → Prop
  | start : Traced obj allow m (St.initial m) []
  | step {s s' τ} (t : Nat) : Traced obj allow m s τ → Step obj allow t s s' → Traced obj allow m s' (τ ++ (s.thr t).acts t)

theorem Traced.run {obj : Obj M L Op Ret} {allow m s τ} (h : Traced obj allow m s τ) : Run obj allow m s := by
  induction h with
  | start => exact .start
  | step t _ hs ih => exact .step t ih hs

theorem Run.traced {obj : Obj M L Op Ret} {allow m s} (h : Run obj allow m s) : ∃ τ, Traced obj allow m s τ := by
  induction h with
  | start => exact ⟨[], .start⟩
  | step t _ hs ih => obtain ⟨τ, h⟩ := ih; exact ⟨_, .step t h hs⟩

theorem Traced.locked {obj : Obj M L Op Ret} {allow m s τ} (h : Traced obj allow m s τ) :
    hold 0 τ = s.lock ∧ WellLocked 0 τ ∧ Guarded 0 0 τ := by
  induction h with
  | start => exact ⟨rfl, fun n t => by simp, fun n t a => by simp⟩
  | @step s s' τ t hr hs ih =>
    obtain ⟨h1, h2, h3⟩ := ih
    have hold_t := hr.run.holder t
    cases hs with
    | call o _ e => simpa [e, TS.acts] using ⟨h1, h2, h3⟩
    | acquire o e hl =>
      simp only [e, TS.acts]
      refine ⟨by simp [hold_snoc], h2.snoc (fun _ => by rw [h1, hl]) (fun e => by simp at e), h3.snoc fun e => ?_⟩
      rcases e with e | e <;> simp at e
    | go o l m' l' e _ =>
      simp only [e, TS.acts]
      have hl : s.lock = some t := hold_t.mp (by rw [e]; rfl)
      refine ⟨by simp [hold_snoc, h1], h2.snoc (fun e => by simp at e) (fun e => by simp at e), h3.snoc fun _ => by rw [h1, hl]⟩
    | finish o l m' r e _ =>
      simp only [e, TS.acts]
      have hl : s.lock = some t := hold_t.mp (by rw [e]; rfl)
      refine ⟨by simp [hold_snoc, h1], h2.snoc (fun e => by simp at e) (fun e => by simp at e), h3.snoc fun _ => by rw [h1, hl]⟩
    | release o r e =>
      simp only [e, TS.acts]
      have hl : s.lock = some t := hold_t.mp (by rw [e]; rfl)
      refine ⟨by simp [hold_snoc], h2.snoc (fun e => by simp at e) (fun _ => by rw [h1, hl]), h3.snoc fun e => ?_⟩
      rcases e with e | e <;> simp at e
    | ret o r e => simpa [e, TS.acts] using ⟨h1, h2, h3⟩

namespace CondVar

/-- What a thread of `Conc/CondVar` does in its next step: variable 0 is the flag `locked` of the `UniqueLocker` (Utils.cpp 186-205), lock 0 the lock given to the
constructor, variable 1 the value of the counter, lock 1 the counter's spin lock (Counter.hpp 43-64).  A try that fails synchronises with nothing. -/
def acts (s : St) (t : Nat) : Trace :=
  match s.thr t with
  | .idle => []
  | .w1 => [(t, .acq 1), (t, .read 1), (t, .write 1), (t, .rel 1)]
  | .w2 => [(t, .acq 1), (t, .read 1), (t, .rel 1)]
  | .w3 => [(t, .acq 0)]
  | .w4 => [(t, .write 0)]
  | .w5 => [(t, .rel 0)]
  | .w6 => [(t, .write 0)]
  | .w7 => [(t, .acq 1), (t, .read 1), (t, .write 1), (t, .rel 1)]
  | .n1 => [(t, .acq 1), (t, .read 1), (t, .rel 1)]
  | .n2 _ _ => [(t, .rel 0)]
  | .n3 _ _ => [(t, .write 0)]
  | .n4 _ _ => [(t, .acq 1), (t, .read 1), (t, .rel 1)]
  | .n5 _ => [(t, .read 0)]
  | .n6 _ => if s.lk then [(t, .write 0)] else [(t, .acq 0)]
  | .n7 _ => [(t, .write 0)]
  | .y1 => [(t, .read 0)]
  | .y2 => if s.lk then [(t, .write 0)] else [(t, .acq 0)]
  | .y3 => [(t, .write 0)]
  | .y4 => [(t, .rel 0)]
  | .y5 => [(t, .write 0)]

/-- `Reaches` with its trace. -/
inductive Traced (allow : Nat → Call → Prop) : St → Trace → Prop
  | start : Traced allow init []
  | step {s s' τ} (t : Nat) (c : Option Call) : Traced allow s τ → (∀ k, c = some k → allow t k) → next s t c = some s' →
      Traced allow s' (τ ++ acts s t)

theorem Traced.reaches {allow s τ} (h : Traced allow s τ) : Reaches allow init s := by
  induction h with
  | start => exact .refl
  | step t c _ hc hs ih => exact .step t c ih hc hs

theorem Reaches.traced {allow s} (h : Reaches allow init s) : ∃ τ, Traced allow s τ := by
  induction h with
  | refl => exact ⟨[], .start⟩
  | step t c _ hc hs ih => obtain ⟨τ, h⟩ := ih; exact ⟨_, .step t c h hc hs⟩

/-- `τ` has the counter's lock free and everything done with the counter under it. -/
def Neat (τ : Trace) : Prop := hold 1 τ = none ∧ WellLocked 1 τ ∧ Guarded 1 1 τ

theorem Neat.other {τ : Trace} (h : Neat τ) (t : Nat) {a : Act} (ha : a ≠ .acq 1) (hr : a ≠ .rel 1) (ht : ¬ Touches 1 a) : Neat (τ ++ [(t, a)]) :=
  ⟨by simp [hold_snoc, ha, hr, h.1], h.2.1.snoc (fun e => absurd e ha) (fun e => absurd e hr), h.2.2.snoc fun e => absurd e ht⟩

theorem Neat.reads {τ : Trace} (h : Neat τ) (t : Nat) : Neat (τ ++ [(t, .acq 1), (t, .read 1), (t, .rel 1)]) := by
  obtain ⟨h1, h2, h3⟩ := h
  have e : τ ++ [(t, .acq 1), (t, .read 1), (t, .rel 1)] = τ ++ [(t, .acq 1)] ++ [(t, .read 1)] ++ [(t, .rel 1)] := by simp
  rw [e]
  refine ⟨by simp [hold], ?_, ?_⟩
  · exact ((h2.snoc (by simp [h1]) (by simp)).snoc (by simp) (by simp)).snoc (by simp) (by simp [hold])
  · exact ((h3.snoc (by simp [Touches])).snoc (by simp [hold])).snoc (by simp [Touches])

theorem Neat.writes {τ : Trace} (h : Neat τ) (t : Nat) : Neat (τ ++ [(t, .acq 1), (t, .read 1), (t, .write 1), (t, .rel 1)]) := by
  obtain ⟨h1, h2, h3⟩ := h
  have e : τ ++ [(t, .acq 1), (t, .read 1), (t, .write 1), (t, .rel 1)] =
    τ ++ [(t, .acq 1)] ++ [(t, .read 1)] ++ [(t, .write 1)] ++ [(t, .rel 1)] := by simp
  rw [e]
  refine ⟨by simp [hold], ?_, ?_⟩
  · exact (((h2.snoc (by simp [h1]) (by simp)).snoc (by simp) (by simp)).snoc (by simp) (by simp)).snoc (by simp) (by simp [hold])
  · exact (((h3.snoc (by simp [Touches])).snoc (by simp [hold])).snoc (by simp [hold])).snoc (by simp [Touches])

theorem Neat.acts {τ : Trace} (h : Neat τ) (s : St) (t : Nat) : Neat (τ ++ CondVar.acts s t) := by
  unfold CondVar.acts
  have o : ∀ a, a ≠ .acq 1 ∧ a ≠ .rel 1 ∧ ¬ Touches 1 a → Neat (τ ++ [(t, a)]) := fun a ha => h.other t ha.1 ha.2.1 ha.2.2
  have r := h.reads t
  have w := h.writes t
  split <;> first
    | (split <;> exact o _ (by simp [Touches]))
    | exact r
    | exact w
    | exact o _ (by simp [Touches])
    | simpa using h

theorem Traced.neat {allow s τ} (h : Traced allow s τ) : Neat τ := by
  induction h with
  | start => exact ⟨rfl, fun n t => by simp, fun n t a => by simp⟩
  | step t c _ _ _ ih => exact ih.acts _ t

end CondVar
end Flame.Conc

namespace Flame.Notify
open Conc.Race

/-- What an operation does with `notificationObject`, variable 0 (EventCatcherBase.cpp 14-30): the program is thread 0, the thread `t` that takes events thread `t + 1`. -/
def acts (s : St) : Op → Trace
  | .set _ => [(0, .write 0)]
  | .unset => [(0, .write 0)]
  | .run t => match s.pc t with
    | .idle => [(t + 1, .read 0)]
    | .tested => [(t + 1, .read 0)]
    | .got _ => []
    | .inside _ => []
  | .make _ => []
  | .destroy _ => []

/-- The trace of a history. -/
def trace : St → List Op → Res Trace
  | _, [] => .ok []
  | s, o :: os => match step s o with
    | .ok s' => match trace s' os with
      | .ok τ => .ok (acts s o ++ τ)
      | .ub => .ub
      | .loop => .loop
    | .ub => .ub
    | .loop => .loop

theorem trace_acts {os : List Op} : ∀ {s : St} {τ : Trace}, trace s os = .ok τ →
    (∀ e ∈ τ, e = (0, .write 0) ∨ ∃ t, e = (t + 1, .read 0)) ∧
    ((0, .write 0) ∈ τ ↔ ∃ o ∈ os, o = .unset ∨ ∃ n, o = .set n) := by
  induction os with
  | nil => intro s τ h; simp only [trace, Res.ok.injEq] at h; subst h; simp
  | cons o os ih =>
    intro s τ h
    simp only [trace] at h
    cases hs : step s o with
    | ub => simp [hs] at h
    | loop => simp [hs] at h
    | ok s' =>
      cases ht : trace s' os with
      | ub => simp [hs, ht] at h
      | loop => simp [hs, ht] at h
      | ok τ' =>
        simp only [hs, ht, Res.ok.injEq] at h
        subst h
        obtain ⟨h1, h2⟩ := ih ht
        constructor
        · intro e he
          rcases List.mem_append.mp he with he | he
          · cases o <;> simp only [acts] at he
            · simp at he
            · simp at he; exact .inl he
            · simp at he; exact .inl he
            · simp at he
            · split at he <;> simp at he <;> exact .inr ⟨_, he⟩
          · exact h1 e he
        · rw [List.mem_append, h2]
          constructor
          · rintro (he | ⟨o', ho', h⟩)
            · refine ⟨o, .head _, ?_⟩
              cases o <;> simp only [acts] at he
              · simp at he
              · exact .inr ⟨_, rfl⟩
              · exact .inl rfl
              · simp at he
              · split at he <;> simp at he
            · exact ⟨o', .tail _ ho', h⟩
          · rintro ⟨o', ho', h⟩
            rcases List.mem_cons.mp ho' with rfl | ho'
            · left
              rcases h with rfl | ⟨n, rfl⟩ <;> simp [acts]
            · exact .inr ⟨o', ho', h⟩

/-- An event begins to be taken: some thread reads the pointer. -/
theorem trace_reads {os : List Op} : ∀ {s : St} {τ : Trace}, (∀ t, s.pc t = .idle) → trace s os = .ok τ →
    ∀ t, (t + 1, .read 0) ∈ τ ↔ .run t ∈ os := by
  have strong : ∀ (os : List Op) {s : St} {τ : Trace}, trace s os = .ok τ → ∀ t,
      ((t + 1, .read 0) ∈ τ → .run t ∈ os) ∧ (s.pc t = .idle → .run t ∈ os → (t + 1, .read 0) ∈ τ) := by
    intro os
    induction os with
    | nil => intro s τ h t; simp only [trace, Res.ok.injEq] at h; subst h; simp
    | cons o os ih =>
      intro s τ h t
      simp only [trace] at h
      cases hs : step s o with
      | ub => simp [hs] at h
      | loop => simp [hs] at h
      | ok s' =>
        cases ht : trace s' os with
        | ub => simp [hs, ht] at h
        | loop => simp [hs, ht] at h
        | ok τ' =>
          simp only [hs, ht, Res.ok.injEq] at h
          subst h
          obtain ⟨h1, h2⟩ := ih ht t
          constructor
          · intro he
            rcases List.mem_append.mp he with he | he
            · cases o <;> simp only [acts] at he
              · simp at he
              · simp at he
              · simp at he
              · simp at he
              · split at he <;> simp at he <;> subst he <;> exact .head _
            · exact .tail _ (h1 he)
          · intro hi hm
            rcases List.mem_cons.mp hm with rfl | hm
            · exact List.mem_append_left _ (by simp [acts, hi])
            · by_cases ho : o = .run t
              · subst ho; exact List.mem_append_left _ (by simp [acts, hi])
              · have : s'.pc t = .idle := by
                  cases o with
                  | make n => simp only [step, Res.ok.injEq] at hs; subst hs; exact hi
                  | set n => simp only [step, Res.ok.injEq] at hs; subst hs; exact hi
                  | unset => simp only [step, Res.ok.injEq] at hs; subst hs; exact hi
                  | destroy n => simp only [step] at hs; split at hs <;> simp at hs; subst hs; exact hi
                  | run u =>
                    have hu : t ≠ u := fun e => ho (by rw [e])
                    simp only [step] at hs
                    split at hs
                    · split at hs <;> simp only [Res.ok.injEq] at hs <;> subst hs
                      · simp [Own.upd_ne _ _ hu, hi]
                      · exact hi
                    · split at hs
                      · simp only [Res.ok.injEq] at hs; subst hs; simp [Own.upd_ne _ _ hu, hi]
                      · cases hs
                      · cases hs
                    · split at hs
                      · simp only [Res.ok.injEq] at hs; subst hs; simp [Own.upd_ne _ _ hu, hi]
                      · cases hs
                    · split at hs
                      · simp only [Res.ok.injEq] at hs; subst hs; simp [Own.upd_ne _ _ hu, hi]
                      · cases hs
                exact List.mem_append_right _ (h2 this hm)
  intro s τ hi h t
  exact ⟨(strong os h t).1, (strong os h t).2 (hi t)⟩

end Flame.Notify

namespace Flame.WsaLib
open Conc.Race

/-- What an operation does with `inited`, variable 0 (SocketFunctions.cpp 289, 294, 304). -/
def acts : Op → Trace
  | .check i => [(i, .read 0)]
  | .startup _ _ => []
  | .set i => [(i, .write 0)]
  | .read i => [(i, .read 0)]
  | .exit => []

theorem acts_noacq (os : List Op) : ∀ e ∈ os.flatMap acts, ∀ l, e.2 ≠ .acq l := by
  intro e he l
  obtain ⟨o, -, h⟩ := List.mem_flatMap.mp he
  cases o <;> simp [acts] at h <;> subst h <;> simp

end Flame.WsaLib

namespace Flame
open Conc Conc.Race

/-- **C174.** Whatever the program: a variable that is accessed only by threads holding a lock, which is taken only when free and given up by its holder, is never
raced for. -/
theorem C174_discipline {l x : Nat} {τ : Trace} (hw : WellLocked l τ) (hg : Guarded l x τ) : ¬ RaceOn τ x := guarded_no_race hw hg

/-- **C174 (classes whose methods lock).** In every execution of any number of threads calling the methods of an object that starts each method with a `Locker`, the
object's members are never raced for: of two accesses by different threads one happens before the other. -/
theorem C174_locked_partial {M L Op Ret : Type} {obj : Obj M L Op Ret} {allow : Op → Prop} {m : M} {s : St M L Op Ret} {τ : Trace}
    (h : Traced obj allow m s τ) : (∀ x, ¬ RaceOn τ x) ∧
    ∀ i j p q, i < j → τ[i]? = some p → τ[j]? = some q → p.2 = .write 0 → q.2 = .write 0 → HB τ i j := by
  obtain ⟨h1, h2, h3⟩ := h.locked
  have no0 := guarded_no_race h2 h3
  have only : ∀ {x p}, p ∈ τ → Touches x p.2 → x = 0 := by
    clear no0 h1 h2 h3
    induction h with
    | start => intro x p hp; cases hp
    | @step s s' τ t _ _ ih =>
      intro x p hp ht
      rcases List.mem_append.mp hp with hp | hp
      · exact ih hp ht
      · cases e : s.thr t <;> simp [e, TS.acts] at hp <;> subst hp <;> simp [Touches] at ht <;> exact ht.symm
  refine ⟨fun x hr => ?_, fun i j p q hij hi hj hp hq => ?_⟩
  · have hr' := hr
    obtain ⟨i, j, p, q, _, hi, _, _, ha, _⟩ := hr
    have := only (List.mem_of_getElem? hi) ha
    subst this
    exact no0 hr'
  · by_cases hpq : p.1 = q.1
    · exact .one ⟨hij, p, q, hi, hj, .inl hpq⟩
    · exact Classical.byContradiction fun hn => no0 ⟨i, j, p, q, hij, hi, hj, hpq, .inr hp, .inr hq, .inl hp, hn⟩

/-- Two threads at work on a counter: the second begins while the first is inside, and waits for the lock. -/
example : ∃ s, Traced (Counter.obj 8) (fun _ => True) 0 s [(0, .acq 0), (0, .write 0), (0, .write 0), (0, .rel 0), (1, .acq 0), (1, .write 0)] ∧ s.mem = 1 := by
  have t1 := Traced.step (obj := Counter.obj 8) (allow := fun _ => True) (m := 0) 0 .start (.call .inc trivial rfl)
  have t2 := Traced.step 1 t1 (.call .inc trivial rfl)
  have t3 := Traced.step 0 t2 (.acquire .inc rfl rfl)
  have t4 := Traced.step 0 t3 (.go .inc _ _ _ rfl rfl)
  have t5 := Traced.step 0 t4 (.finish .inc _ _ _ rfl rfl)
  have t6 := Traced.step 0 t5 (.release .inc _ rfl)
  have t7 := Traced.step 1 t6 (.acquire .inc rfl rfl)
  have t8 := Traced.step 1 t7 (.go .inc _ _ _ rfl rfl)
  exact ⟨_, t8, rfl⟩

/-- **C174 (condition variable, counter).** The counter of waiters is never raced for. -/
theorem C174_waiters_partial {allow : Nat → CondVar.Call → Prop} {s : CondVar.St} {τ : Trace} (h : CondVar.Traced allow s τ) : ¬ RaceOn τ 1 :=
  guarded_no_race h.neat.2.1 h.neat.2.2

/-- **C174, the traces.**  A trace reports what the steps do: the lock is acquired exactly by the steps that find it free and leave it taken, a step that frees it
releases it, and no step changes the flag or the counter without a write to it. -/
theorem C174_trace_faithful {s s' : CondVar.St} {t : Nat} {c : Option CondVar.Call} (h : CondVar.next s t c = some s') :
    ((t, .acq 0) ∈ CondVar.acts s t ↔ s.lk = false ∧ s'.lk = true) ∧
    ((t, .rel 0) ∈ CondVar.acts s t → s'.lk = false) ∧ (s.lk = true → s'.lk = false → (t, .rel 0) ∈ CondVar.acts s t) ∧
    (s'.flag ≠ s.flag → (t, .write 0) ∈ CondVar.acts s t) ∧ (s'.cnt ≠ s.cnt → (t, .write 1) ∈ CondVar.acts s t) := by
  unfold CondVar.next at h
  unfold CondVar.acts
  cases hp : s.thr t <;> simp only [hp] at h ⊢ <;> (repeat' (split at h)) <;>
    first
    | (cases h; done)
    | (cases h; cases hl : s.lk <;> simp_all)
    | skip

example : ∃ s s', CondVar.next s 1 none = some s' ∧ (1, .acq 0) ∈ CondVar.acts s 1 :=
  let s : CondVar.St := { CondVar.init with lk := false, thr := fun _ => .n6 0 }
  have h : CondVar.next s 1 none = some { s with thr := Own.upd s.thr 1 (.n7 0), lk := true } := rfl
  ⟨s, _, h, (C174_trace_faithful h).1.2 ⟨rfl, rfl⟩⟩

/-- **C174, the traces (reads).**  A step whose continuation depends on the flag, or on the counter, is reported as reading it. -/
theorem C174_trace_reads {s s₁ s₂ : CondVar.St} {t : Nat} {c : Option CondVar.Call} (h₁ : CondVar.next s t c = some s₁) :
    (∀ b, CondVar.next { s with flag := b } t c = some s₂ → s₂.thr t ≠ s₁.thr t → (t, .read 0) ∈ CondVar.acts s t) ∧
    (∀ n, CondVar.next { s with cnt := n } t c = some s₂ → s₂.thr t ≠ s₁.thr t → (t, .read 1) ∈ CondVar.acts s t) := by
  unfold CondVar.next at h₁ ⊢
  unfold CondVar.acts
  cases hp : s.thr t <;> simp only [hp] at h₁ ⊢ <;> (constructor <;> intro v h₂ hne) <;> (repeat' (split at h₁)) <;> (repeat' (split at h₂)) <;>
    first
    | (cases h₁; done)
    | (cases h₂; done)
    | (cases h₁; cases h₂; simp_all)
    | skip

/-- `tryLock` reads the flag: the two continuations differ. -/
example : (1, .read 0) ∈ CondVar.acts { CondVar.init with thr := fun _ => .y1 } 1 :=
  (C174_trace_reads (s := { CondVar.init with thr := fun _ => .y1 }) (t := 1) (c := none) rfl).1 false rfl (by decide)

/-- **C174 violated (condition variable).** Whenever a thread is about to release the lock, in `notify` or at the end of a wait, and another one waits for it, the two may
race for the flag `locked` of the condition variable: `UniqueLocker` writes it after unlocking. -/
theorem C174_condition_violated {allow : Nat → CondVar.Call → Prop} {s : CondVar.St} {τ : Trace} (h : CondVar.Traced allow s τ) {t u : Nat}
    (ht : s.thr t = .w5 ∨ ∃ c w, s.thr t = .n2 c w) (hu : s.thr u = .w3) :
    ∃ s', CondVar.play s [(t, none), (u, none), (u, none), (t, none)] = some s' ∧
      CondVar.Traced allow s' (τ ++ [(t, .rel 0), (u, .acq 0), (u, .write 0), (t, .write 0)]) ∧
      RaceOn (τ ++ [(t, .rel 0), (u, .acq 0), (u, .write 0), (t, .write 0)]) 0 := by
  have hne : u ≠ t := by rintro rfl; rcases ht with e | ⟨c, w, e⟩ <;> rw [hu] at e <;> cases e
  have race : RaceOn (τ ++ [(t, .rel 0), (u, .acq 0), (u, .write 0), (t, .write 0)]) 0 := by
    have := race_last (τ := τ ++ [(t, .rel 0), (u, .acq 0)]) (x := 0) hne (.inr rfl) (.inr rfl) (.inl rfl)
    simpa using this
  have chain : ∀ {s₁ s₂ s₃ s₄}, CondVar.next s t none = some s₁ → CondVar.acts s t = [(t, .rel 0)] →
      CondVar.next s₁ u none = some s₂ → CondVar.acts s₁ u = [(u, .acq 0)] →
      CondVar.next s₂ u none = some s₃ → CondVar.acts s₂ u = [(u, .write 0)] →
      CondVar.next s₃ t none = some s₄ → CondVar.acts s₃ t = [(t, .write 0)] →
      ∃ s', CondVar.play s [(t, none), (u, none), (u, none), (t, none)] = some s' ∧
        CondVar.Traced allow s' (τ ++ [(t, .rel 0), (u, .acq 0), (u, .write 0), (t, .write 0)]) := by
    intro s₁ s₂ s₃ s₄ e1 a1 e2 a2 e3 a3 e4 a4
    refine ⟨s₄, by simp [CondVar.play, e1, e2, e3, e4], ?_⟩
    have t1 := CondVar.Traced.step t none h (fun k e => nomatch e) e1
    have t2 := CondVar.Traced.step u none t1 (fun k e => nomatch e) e2
    have t3 := CondVar.Traced.step u none t2 (fun k e => nomatch e) e3
    have t4 := CondVar.Traced.step t none t3 (fun k e => nomatch e) e4
    rw [a1, a2, a3, a4] at t4
    simpa using t4
  rcases ht with e | ⟨c, w, e⟩
  · obtain ⟨s', p, q⟩ := chain (by simp only [CondVar.next, e]; rfl) (by simp [CondVar.acts, e])
      (by simp [CondVar.next, Own.upd_ne _ _ hne, hu]; rfl) (by simp [CondVar.acts, Own.upd_ne _ _ hne, hu])
      (by simp [CondVar.next]; rfl) (by simp [CondVar.acts])
      (by simp [CondVar.next, Own.upd_ne _ _ hne.symm]; rfl) (by simp [CondVar.acts, Own.upd_ne _ _ hne.symm])
    exact ⟨s', p, q, race⟩
  · obtain ⟨s', p, q⟩ := chain (by simp only [CondVar.next, e]; rfl) (by simp [CondVar.acts, e])
      (by simp [CondVar.next, Own.upd_ne _ _ hne, hu]; rfl) (by simp [CondVar.acts, Own.upd_ne _ _ hne, hu])
      (by simp [CondVar.next]; rfl) (by simp [CondVar.acts])
      (by simp [CondVar.next, Own.upd_ne _ _ hne.symm]; rfl) (by simp [CondVar.acts, Own.upd_ne _ _ hne.symm])
    exact ⟨s', p, q, race⟩

/-- Any schedule played from the start has a trace. -/
theorem CondVar.play_traced {allow : Nat → CondVar.Call → Prop} (ha : ∀ t k, allow t k) : ∀ {l : List (Nat × Option CondVar.Call)} {s s' : CondVar.St} {τ : Trace},
    CondVar.Traced allow s τ → CondVar.play s l = some s' → ∃ τ', CondVar.Traced allow s' τ'
  | [], s, s', τ, h, e => by simp [CondVar.play] at e; subst e; exact ⟨τ, h⟩
  | (t, c) :: l, s, s', τ, h, e => by
    simp only [CondVar.play] at e
    cases hn : CondVar.next s t c with
    | none => simp [hn] at e
    | some s₁ =>
      simp only [hn, Option.bind_some] at e
      exact CondVar.play_traced ha (.step t c h (fun k _ => ha t k) hn) e

/-- A state meeting the hypotheses: thread 1 waits, thread 2 has begun to notify. -/
example : ∃ s τ, CondVar.Traced (fun _ _ => True) s τ ∧ s.thr 2 = .n2 1 0 ∧ s.thr 1 = .w3 := by
  have e : ∃ s, CondVar.play CondVar.init [(1, some .wait), (1, none), (1, none), (2, some .notify), (2, none)] = some s ∧
    s.thr 2 = .n2 1 0 ∧ s.thr 1 = .w3 := ⟨_, rfl, rfl, rfl⟩
  obtain ⟨s, e, h⟩ := e
  obtain ⟨τ, ht⟩ := CondVar.play_traced (fun _ _ => trivial) .start e
  exact ⟨s, τ, ht, h⟩

/-- **C174 (notificator, exactly).** An execution of `setNotificator`, `unsetNotificator` and `notify` races for the notificator exactly if one is set or unset at any time and
some other thread takes an event at any time (unless the program itself keeps the two apart). -/
theorem C174_notificator_exact {os : List Notify.Op} {τ : Trace} (h : Notify.trace Notify.init os = .ok τ) :
    RaceOn τ 0 ↔ (∃ o ∈ os, o = .unset ∨ ∃ n, o = .set n) ∧ ∃ t, .run t ∈ os := by
  obtain ⟨h1, h2⟩ := Notify.trace_acts h
  have h3 := Notify.trace_reads (fun _ => rfl) h
  rw [race_iff_unsync (fun e he l => by rcases h1 e he with rfl | ⟨t, rfl⟩ <;> simp), ← h2]
  constructor
  · rintro ⟨p, hp, q, hq, hne, hw, ht⟩
    rcases h1 p hp with rfl | ⟨t, rfl⟩
    · refine ⟨hp, ?_⟩
      rcases h1 q hq with rfl | ⟨t, rfl⟩
      · exact absurd rfl hne
      · exact ⟨t, (h3 t).mp hq⟩
    · simp at hw
  · rintro ⟨hp, t, ht⟩
    exact ⟨_, hp, _, (h3 t).mpr ht, by simp, rfl, .inl rfl⟩

/-- **C174 (Winsock, exactly).** Calls of `winsockInit` race for the flag `inited` exactly if one thread sets it and another one calls at any time. -/
theorem C174_winsock_exact (os : List WsaLib.Op) :
    RaceOn (os.flatMap WsaLib.acts) 0 ↔ ∃ i, .set i ∈ os ∧ ∃ j, j ≠ i ∧ (.check j ∈ os ∨ .read j ∈ os ∨ .set j ∈ os) := by
  rw [race_iff_unsync (WsaLib.acts_noacq os)]
  constructor
  · rintro ⟨p, hp, q, hq, hne, hw, ht⟩
    obtain ⟨o, ho, hp⟩ := List.mem_flatMap.mp hp
    obtain ⟨o', ho', hq⟩ := List.mem_flatMap.mp hq
    cases o <;> simp [WsaLib.acts] at hp <;> subst hp <;> simp at hw
    rename_i i
    refine ⟨i, ho, ?_⟩
    cases o' <;> simp [WsaLib.acts] at hq <;> subst hq
    · exact ⟨_, fun e => hne e.symm, .inl ho'⟩
    · exact ⟨_, fun e => hne e.symm, .inr (.inr ho')⟩
    · exact ⟨_, fun e => hne e.symm, .inr (.inl ho')⟩
  · rintro ⟨i, hi, j, hne, h⟩
    refine ⟨(i, .write 0), List.mem_flatMap.mpr ⟨_, hi, by simp [WsaLib.acts]⟩, ?_⟩
    rcases h with h | h | h
    · exact ⟨(j, .read 0), List.mem_flatMap.mpr ⟨_, h, by simp [WsaLib.acts]⟩, fun e => hne e.symm, rfl, .inl rfl⟩
    · exact ⟨(j, .read 0), List.mem_flatMap.mpr ⟨_, h, by simp [WsaLib.acts]⟩, fun e => hne e.symm, rfl, .inl rfl⟩
    · exact ⟨(j, .write 0), List.mem_flatMap.mpr ⟨_, h, by simp [WsaLib.acts]⟩, fun e => hne e.symm, rfl, .inr rfl⟩

/-- A notificator is set, an event arrives and the notificator is unset: the history has a trace, with a race. -/
example : ∃ τ, Notify.trace Notify.init [.make 7, .set 7, .run 1, .run 1, .run 1, .run 1, .unset] = .ok τ ∧ RaceOn τ 0 := by
  refine ⟨_, rfl, (C174_notificator_exact (os := [.make 7, .set 7, .run 1, .run 1, .run 1, .run 1, .unset]) rfl).mpr ?_⟩
  simp

/-- Two threads make their first socket one after the other: this already races. -/
example : RaceOn ([.check 0, .startup 0 true, .set 0, .read 0, .check 1, .read 1].flatMap WsaLib.acts) 0 :=
  (C174_winsock_exact _).mpr ⟨0, by simp, 1, by simp, by simp⟩

namespace Flame
open Conc Conc.Race
private theorem cond_run : ∃ s τ, CondVar.Traced (fun _ _ => True) s τ ∧ s.thr 2 = .n2 1 0 ∧ s.thr 1 = .w3 := by
  have e : ∃ s, CondVar.play CondVar.init [(1, some .wait), (1, none), (1, none), (2, some .notify), (2, none)] = some s ∧
    s.thr 2 = .n2 1 0 ∧ s.thr 1 = .w3 := ⟨_, rfl, rfl, rfl⟩
  obtain ⟨s, e, h⟩ := e
  obtain ⟨τ, ht⟩ := CondVar.play_traced (fun _ _ => trivial) .start e
  exact ⟨s, τ, ht, h⟩
example := C174_discipline (l := 1) (x := 1) (τ := [(0, .acq 1), (0, .write 1), (0, .rel 1)])
example := cond_run.imp fun _ h => h.imp fun _ h => C174_waiters_partial h.1
example := cond_run.imp fun _ h => h.imp fun _ h => C174_condition_violated h.1 (.inr ⟨1, 0, h.2.1⟩) h.2.2
end Flame

end Flame
