import Verif.Own.Spec

/-!
# What "atomic under concurrency" means

Nothing here refers to the code.  Threads call operations of a shared object; a *history* is the sequence of calls
and returns in real time.  A history is linearizable if every operation can be given one instant between its call
and its return such that the results are those of performing the operations one at a time, in the order of these
instants, on the sequential object `run : A → Op → A × Ret`.
-/

namespace Flame.Conc
open Flame.Own (upd upd_self upd_ne)

inductive Event (Op Ret : Type) where
  /-- thread `t` calls `o` -/
  | inv (t : Nat) (o : Op)
  /-- the call of thread `t` returns `r` -/
  | ret (t : Nat) (r : Ret)
  deriving DecidableEq

inductive Status (Op Ret : Type) where
  | idle
  /-- called, has not taken effect -/
  | pending (o : Op)
  /-- took effect, has not returned -/
  | done (r : Ret)
  deriving DecidableEq

variable {A Op Ret : Type}

/-- Histories `h` of an object whose operations take effect instantly; `a` is the resulting object, `st` the
threads' status and `l` the operations (thread, operation, result) in the order in which they took effect. -/
inductive Atomic (run : A → Op → A × Ret) (a₀ : A) :
    List (Event Op Ret) → A → (Nat → Status Op Ret) → List (Nat × Op × Ret) → Prop
  | start : Atomic run a₀ [] a₀ (fun _ => .idle) []
  | inv {h a st l} (t : Nat) (o : Op) : Atomic run a₀ h a st l → st t = .idle →
      Atomic run a₀ (h ++ [.inv t o]) a (upd st t (.pending o)) l
  | effect {h a st l} (t : Nat) (o : Op) : Atomic run a₀ h a st l → st t = .pending o →
      Atomic run a₀ h (run a o).1 (upd st t (.done (run a o).2)) (l ++ [(t, o, (run a o).2)])
  | ret {h a st l} (t : Nat) (r : Ret) : Atomic run a₀ h a st l → st t = .done r →
      Atomic run a₀ (h ++ [.ret t r]) a (upd st t .idle) l

def Linearizable (run : A → Op → A × Ret) (a₀ : A) (h : List (Event Op Ret)) : Prop :=
  ∃ a st l, Atomic run a₀ h a st l

/-- `l` is a correct sequential execution from `a` to `b`. -/
def Legal (run : A → Op → A × Ret) : A → List (Nat × Op × Ret) → A → Prop
  | a, [], b => a = b
  | a, (_, o, r) :: l, b => (run a o).2 = r ∧ Legal run (run a o).1 l b

theorem Legal.append {run : A → Op → A × Ret} {l m : List (Nat × Op × Ret)} {a b c : A} (h1 : Legal run a l b)
    (h2 : Legal run b m c) : Legal run a (l ++ m) c := by
  induction l generalizing a with
  | nil => simp only [Legal] at h1; subst h1; exact h2
  | cons p l ih => obtain ⟨t, o, r⟩ := p; exact ⟨h1.1, ih h1.2⟩

theorem Atomic.legal {run : A → Op → A × Ret} {a₀ : A} {h a st l} (ha : Atomic run a₀ h a st l) : Legal run a₀ l a := by
  induction ha with
  | start => rfl
  | inv t o _ _ ih => exact ih
  | effect t o _ _ ih => exact ih.append ⟨rfl, rfl⟩
  | ret t r _ _ ih => exact ih

/-- The calls of thread `t`, in order. -/
def callsOf (t : Nat) (h : List (Event Op Ret)) : List Op :=
  h.filterMap fun e => match e with
    | .inv u o => if u = t then some o else none
    | .ret _ _ => none

/-- The results returned to thread `t`, in order. -/
def retsOf (t : Nat) (h : List (Event Op Ret)) : List Ret :=
  h.filterMap fun e => match e with
    | .inv _ _ => none
    | .ret u r => if u = t then some r else none

/-- The operations of thread `t` in a sequential execution. -/
def partOf (t : Nat) (l : List (Nat × Op × Ret)) : List (Op × Ret) :=
  (l.filter fun p => p.1 = t).map (·.2)

/-- What is not yet in the sequential execution / has not yet returned. -/
def Status.called : Status Op Ret → List Op
  | .pending o => [o]
  | _ => []
def Status.toReturn : Status Op Ret → List Ret
  | .done r => [r]
  | _ => []

/-- Each thread's calls and results are, in order, those of its operations in the sequential execution; at most the
latest call is missing there (not yet effective), at most the latest result is missing in the history (not yet
returned). -/
theorem Atomic.threads {run : A → Op → A × Ret} {a₀ : A} {h a st l} (ha : Atomic run a₀ h a st l) (t : Nat) :
    callsOf t h = (partOf t l).map (·.1) ++ (st t).called ∧
    retsOf t h ++ (st t).toReturn = (partOf t l).map (·.2) := by
  induction ha with
  | start => simp [callsOf, retsOf, partOf, Status.called, Status.toReturn]
  | @inv h a st l u o _ hs ih =>
    by_cases hu : u = t
    · subst hu
      rw [hs] at ih
      simp only [Status.called, Status.toReturn, List.append_nil] at ih
      simp only [callsOf, retsOf, List.filterMap_append, upd_self, Status.called, Status.toReturn] at *
      refine ⟨?_, ?_⟩
      · rw [ih.1]; simp
      · simpa using ih.2
    · have hu' : t ≠ u := fun e => hu e.symm
      simp only [callsOf, retsOf, List.filterMap_append, upd_ne _ _ hu'] at *
      simpa [hu] using ih
  | @effect h a st l u o _ hs ih =>
    by_cases hu : u = t
    · subst hu
      rw [hs] at ih
      simp only [Status.called, Status.toReturn, List.append_nil] at ih
      simp only [upd_self, Status.called, Status.toReturn, partOf, List.filter_append, List.map_append] at *
      refine ⟨?_, ?_⟩
      · rw [ih.1]; simp
      · rw [ih.2]; simp
    · have hu' : t ≠ u := fun e => hu e.symm
      simp only [partOf, List.filter_append, upd_ne _ _ hu'] at *
      simpa [hu] using ih
  | @ret h a st l u r _ hs ih =>
    by_cases hu : u = t
    · subst hu
      rw [hs] at ih
      simp only [Status.called, Status.toReturn, List.append_nil] at ih
      simp only [callsOf, retsOf, List.filterMap_append, upd_self, Status.called, Status.toReturn] at *
      refine ⟨?_, ?_⟩
      · rw [← ih.1]; simp
      · rw [← ih.2]; simp
    · have hu' : t ≠ u := fun e => hu e.symm
      simp only [callsOf, retsOf, List.filterMap_append, upd_ne _ _ hu'] at *
      simpa [hu] using ih

/-- Real-time order: at every moment of the history (a prefix `h₁`) the operations effective so far are an initial
part of the sequential execution that contains everything returned by then and nothing called later. -/
theorem Atomic.realTime {run : A → Op → A × Ret} {a₀ : A} {h a st l} (ha : Atomic run a₀ h a st l)
    {h₁ h₂ : List (Event Op Ret)} (hp : h = h₁ ++ h₂) :
    ∃ l₁ l₂, l = l₁ ++ l₂ ∧ ∀ t, (retsOf t h₁).length ≤ (partOf t l₁).length ∧
      (partOf t l₁).length ≤ (callsOf t h₁).length := by
  have done : ∀ {h a st l}, Atomic run a₀ h a st l → ∀ t, (retsOf t h).length ≤ (partOf t l).length ∧
      (partOf t l).length ≤ (callsOf t h).length := by
    intro h a st l ha t
    obtain ⟨e1, e2⟩ := ha.threads t
    have l1 := congrArg List.length e1
    have l2 := congrArg List.length e2
    simp only [List.length_append, List.length_map] at l1 l2
    omega
  induction ha generalizing h₂ with
  | start =>
    obtain ⟨rfl, _⟩ := List.append_eq_nil_iff.mp hp.symm
    exact ⟨[], [], rfl, fun t => by simp [retsOf, partOf]⟩
  | @inv h a st l u o ha' hs ih =>
    rcases List.eq_nil_or_concat h₂ with e | ⟨h₃, e, he⟩
    · subst e
      rw [List.append_nil] at hp
      subst hp
      exact ⟨l, [], by simp, done (.inv u o ha' hs)⟩
    · subst he
      rw [List.concat_eq_append, ← List.append_assoc] at hp
      exact ih (List.append_inj_left' hp rfl)
  | @effect h a st l u o ha' hs ih =>
    obtain ⟨l₁, l₂, e, hl⟩ := ih hp
    exact ⟨l₁, l₂ ++ [(u, o, (run a o).2)], by rw [e, List.append_assoc], hl⟩
  | @ret h a st l u r ha' hs ih =>
    rcases List.eq_nil_or_concat h₂ with e | ⟨h₃, e, he⟩
    · subst e
      rw [List.append_nil] at hp
      subst hp
      exact ⟨l, [], by simp, done (.ret u r ha' hs)⟩
    · subst he
      rw [List.concat_eq_append, ← List.append_assoc] at hp
      exact ih (List.append_inj_left' hp rfl)

/-- How often `p` is called / performed. -/
def calls (p : Op → Bool) (h : List (Event Op Ret)) : Nat :=
  h.countP fun e => match e with
    | .inv _ o => p o
    | .ret _ _ => false

def performed (p : Op → Bool) (l : List (Nat × Op × Ret)) : Nat := l.countP fun q => p q.2.1

/-- When no thread is in the middle of an operation, everything called was performed. -/
theorem Atomic.quiescent {run : A → Op → A × Ret} {a₀ : A} {h a st l} (ha : Atomic run a₀ h a st l) (p : Op → Bool)
    (hq : ∀ t, st t = .idle) : calls p h = performed p l := by
  suffices H : ∀ {h a st l}, Atomic run a₀ h a st l → ∃ ps : List (Nat × Op), (ps.map (·.1)).Nodup ∧
      (∀ t o, st t = .pending o ↔ (t, o) ∈ ps) ∧ calls p h = performed p l + ps.countP (fun q => p q.2) by
    obtain ⟨ps, _, h2, h3⟩ := H ha
    have : ps = [] := by
      cases ps with
      | nil => rfl
      | cons q ps =>
        have := (h2 q.1 q.2).mpr (by simp)
        rw [hq] at this; cases this
    subst this
    simpa using h3
  intro h a st l ha
  induction ha with
  | start => exact ⟨[], by simp, by simp, by simp [calls, performed]⟩
  | @inv h a st l u o _ hs ih =>
    obtain ⟨ps, h1, h2, h3⟩ := ih
    have hnot : ∀ o', (u, o') ∉ ps := by
      intro o' hm
      have := (h2 u o').mpr hm
      rw [hs] at this; cases this
    refine ⟨(u, o) :: ps, ?_, ?_, ?_⟩
    · simp only [List.map_cons, List.nodup_cons]
      refine ⟨fun hm => ?_, h1⟩
      obtain ⟨q, hq, e⟩ := List.mem_map.mp hm
      exact hnot q.2 (by rw [← e]; exact hq)
    · intro t o'
      by_cases ht : t = u
      · subst ht
        simp only [upd_self, Status.pending.injEq, List.mem_cons, Prod.mk.injEq, true_and]
        constructor
        · intro e; exact .inl e.symm
        · rintro (e | e)
          · exact e.symm
          · exact absurd e (hnot o')
      · rw [upd_ne _ _ ht, h2]
        simp [ht]
    · simp only [calls, List.countP_append] at h3 ⊢
      simp only [h3, List.countP_cons, List.countP_nil, performed]
      omega
  | @effect h a st l u o _ hs ih =>
    obtain ⟨ps, h1, h2, h3⟩ := ih
    have hm := (h2 u o).mp hs
    obtain ⟨p1, p2, e⟩ := List.append_of_mem hm
    subst e
    have hnd : ∀ o', (u, o') ∉ p1 ++ p2 := by
      intro o' hm'
      simp only [List.map_append, List.map_cons, List.nodup_append, List.nodup_cons] at h1
      rcases List.mem_append.mp hm' with h' | h'
      · exact h1.2.2 u (List.mem_map.mpr ⟨_, h', rfl⟩) u (by simp) rfl
      · exact h1.2.1.1 (List.mem_map.mpr ⟨_, h', rfl⟩)
    refine ⟨p1 ++ p2, ?_, ?_, ?_⟩
    · refine h1.sublist ?_
      simp
    · intro t o'
      by_cases ht : t = u
      · subst ht
        simp only [upd_self]
        constructor
        · intro e; cases e
        · intro e; exact absurd e (hnd o')
      · rw [upd_ne _ _ ht, h2]
        simp [ht]
    · rw [h3]
      simp only [performed, List.countP_append, List.countP_cons, List.countP_nil]
      omega
  | @ret h a st l u r _ hs ih =>
    obtain ⟨ps, h1, h2, h3⟩ := ih
    refine ⟨ps, h1, ?_, ?_⟩
    · intro t o'
      by_cases ht : t = u
      · subst ht
        simp only [upd_self]
        constructor
        · intro e; cases e
        · intro e
          have := (h2 t o').mpr e
          rw [hs] at this; cases this
      · rw [upd_ne _ _ ht, h2]
    · simp only [calls, List.countP_append, List.countP_cons, List.countP_nil] at h3 ⊢
      simpa using h3

end Flame.Conc
