import Verif.Conc.SemaLocker

/-!
# C147 — lockers on a semaphore made with `n` let at most `n` threads in
-/

namespace Flame
open Conc Conc.SemaLocker

namespace SemaLockerLemmas

theorem act_balance {v v' : Nat} {x y : TS} {e : Ev} (h : act v x e = some (v', y)) :
    (v' : Int) + (if y.inside then 1 else 0) = v + (if x.inside then 1 else 0) + made x e := by
  cases e <;> (rcases x with _ | _ | _ | (_ | _) | (_ | _)) <;> cases v <;> simp [act] at h <;> obtain ⟨rfl, rfl⟩ := h <;>
    simp [made, TS.inside] <;> omega

theorem step_some {s s' : St} {e : Ev} (h : step s e = some s') :
    ∃ x v y, s.thr[e.thread]? = some x ∧ act s.value x e = some (v, y) ∧ s' = { value := v, thr := s.thr.set e.thread y } := by
  simp only [step] at h
  split at h
  · cases h
  · rename_i x hx
    split at h
    · cases h
    · rename_i v y ha
      cases h
      exact ⟨x, v, y, hx, ha, rfl⟩

theorem countP_set {l : List TS} {t : Nat} {x : TS} (y : TS) (h : l[t]? = some x) :
    ((l.set t y).countP TS.inside : Int) + (if x.inside then 1 else 0) = l.countP TS.inside + (if y.inside then 1 else 0) := by
  induction l generalizing t with
  | nil => simp at h
  | cons a l ih =>
    cases t with
    | zero =>
      simp at h; subst h
      simp only [List.set_cons_zero, List.countP_cons]
      split <;> split <;> omega
    | succ t =>
      simp at h
      have := ih h
      simp only [List.set_cons_succ, List.countP_cons]
      omega

theorem step_balance {s s' : St} {e : Ev} (h : step s e = some s') :
    ∃ x, s.thr[e.thread]? = some x ∧ (s'.value : Int) + s'.inside = s.value + s.inside + made x e := by
  obtain ⟨x, v, y, hx, ha, rfl⟩ := step_some h
  refine ⟨x, hx, ?_⟩
  have h1 := act_balance ha
  have h2 := countP_set y hx
  simp only [St.inside]
  omega

theorem run_balance {s s' : St} {es : List Ev} (h : run s es = some s') :
    (s'.value : Int) + s'.inside = s.value + s.inside + madeAll s es := by
  induction es generalizing s with
  | nil => simp [run] at h; subst h; simp [madeAll]
  | cons e es ih =>
    simp only [run] at h
    split at h
    · cases h
    · rename_i s1 h1
      obtain ⟨x, hx, hb⟩ := step_balance h1
      have := ih h
      simp only [madeAll, hx, h1]
      omega

/-- A careful thread inside `lock()` does not hold already. -/
def Sane (s : St) : Prop := ∀ t : Nat, s.thr[t]? ≠ some (TS.waitU true)

theorem sane_step {s s' : St} {e : Ev} (hs : Sane s) (hc : ∀ x, s.thr[e.thread]? = some x → careful x e = true) (h : step s e = some s') :
    Sane s' ∧ ∀ x, s.thr[e.thread]? = some x → made x e = 0 := by
  obtain ⟨x, v, y, hx, ha, rfl⟩ := step_some h
  have hc' := hc x hx
  have hxs := hs e.thread
  rw [hx] at hxs
  have hy : y ≠ .waitU true := by
    rintro rfl
    generalize s.value = w at ha
    cases e <;> (rcases x with _ | _ | _ | (_ | _) | (_ | _)) <;> cases w <;> simp [act, careful] at ha hc'
  refine ⟨fun t ht => ?_, fun x' hx' => ?_⟩
  · rw [List.getElem?_set] at ht
    split at ht
    · split at ht
      · injection ht with ht; exact hy ht
      · cases ht
    · exact hs t ht
  · rw [hx] at hx'
    injection hx' with hx'
    subst hx'
    cases e <;> simp [made, careful, TS.inside] at hc' ⊢
    · cases x <;> simp [act, TS.inside] at ha hxs ⊢
      · rename_i b; simp [hxs]
    · subst hc'; simp

theorem careful_balance {s s' : St} {es : List Ev} (hs : Sane s) (hc : Careful s es) (h : run s es = some s') :
    s'.value + s'.inside = s.value + s.inside := by
  induction es generalizing s with
  | nil => simp [run] at h; subst h; rfl
  | cons e es ih =>
    simp only [run] at h
    split at h
    · cases h
    · rename_i s1 h1
      obtain ⟨a, b⟩ := sane_step hs hc.1 h1
      obtain ⟨x, hx, hb⟩ := step_balance h1
      have := ih a (hc.2 _ h1) h
      have := b x hx
      omega

theorem sane_init (n k : Nat) : Sane (init n k) := by
  intro t h
  simp [init, List.getElem?_replicate] at h

theorem init_inside (n k : Nat) : (init n k).inside = 0 := by
  simp [init, St.inside, List.countP_replicate, TS.inside]

end SemaLockerLemmas

open SemaLockerLemmas

/-- C147: in every interleaving of careful threads, the permits of the semaphore are either free or held by a thread inside. -/
theorem C147_conserved_partial {n k : Nat} {es : List Ev} {s : St} (hc : Careful (init n k) es) (h : run (init n k) es = some s) :
    s.value + s.inside = n := by
  rw [careful_balance (sane_init n k) hc h, init_inside]
  rfl

/-- C147: so at most `n` threads are inside at once, and when all have left, all permits are back. -/
theorem C147_bound_partial {n k : Nat} {es : List Ev} {s : St} (hc : Careful (init n k) es) (h : run (init n k) es = some s) :
    s.inside ≤ n ∧ (s.inside = 0 → s.value = n) := by
  have := C147_conserved_partial hc h
  omega

/-- C147: and a thread waiting to get in can go in exactly if fewer than `n` are inside. -/
theorem C147_admission_partial {n k : Nat} {es : List Ev} {s : St} (hc : Careful (init n k) es) (h : run (init n k) es = some s) {t : Nat}
    (ht : s.thr[t]? = some .waitL) : (∃ s', step s (.granted t) = some s') ↔ s.inside < n := by
  have hb := C147_conserved_partial hc h
  simp only [step, Ev.thread, ht, act]
  cases hv : s.value with
  | zero => simp; omega
  | succ v => simp; omega

/-- C147: what holds for every program and every pattern of signals: permits free plus threads inside is `n` plus the permits made out of
nothing minus those lost. -/
theorem C147_account {n k : Nat} {es : List Ev} {s : St} (h : run (init n k) es = some s) :
    (s.value : Int) + s.inside = n + madeAll (init n k) es := by
  have := run_balance h
  rw [init_inside] at this
  simpa [init] using this

namespace SemaLockerLemmas

/-- Threads `0 … k-1` arrive one after the other and are all interrupted while they wait. -/
def arrive : Nat → List Ev
  | 0 => []
  | k + 1 => arrive k ++ [.enter k, .interrupted k]

def depart : Nat → List Ev
  | 0 => []
  | k + 1 => depart k ++ [.leave k]

theorem run_append {s s' : St} {a b : List Ev} (h : run s a = some s') : run s (a ++ b) = run s' b := by
  induction a generalizing s with
  | nil => simp [run] at h; subst h; rfl
  | cons e a ih =>
    simp only [run, List.cons_append] at h ⊢
    split at h
    · cases h
    · exact ih h

theorem arrive_ok (n m : Nat) : ∀ k, run (init n (k + m)) (arrive k) = some { value := n, thr := List.replicate k .inL ++ List.replicate m .idle } := by
  intro k
  induction k generalizing m with
  | zero => simp [arrive, run, init]
  | succ k ih =>
    have e : k + 1 + m = k + (m + 1) := by omega
    rw [arrive, e, run_append (ih (m + 1))]
    simp [run, step, Ev.thread, act, List.getElem?_append, List.replicate_succ, List.set_append]
    rw [← List.cons_append, ← List.replicate_succ, List.replicate_succ']
    simp

theorem depart_ok (n m : Nat) : ∀ k, run { value := n, thr := List.replicate (k + m) .inL } (depart k) =
    some { value := n + k, thr := List.replicate k .idle ++ List.replicate m .inL } := by
  intro k
  induction k generalizing m with
  | zero => simp [depart, run]
  | succ k ih =>
    have e : k + 1 + m = k + (m + 1) := by omega
    rw [depart, e, run_append (ih (m + 1))]
    simp [run, step, Ev.thread, act, List.getElem?_append, List.replicate_succ, List.set_append]
    refine ⟨by omega, ?_⟩
    rw [← List.cons_append, ← List.replicate_succ, List.replicate_succ']
    simp

end SemaLockerLemmas

/-- C147 fails when signals arrive: however small `n`, any number of threads can be inside their `Locker`s at once, each of them having done
nothing but construct one. -/
theorem C147_signal_violated (n k : Nat) : ∃ es s, run (init n k) es = some s ∧ s.inside = k ∧ s.value = n ∧
    ∀ e ∈ es, ∃ t, e = .enter t ∨ e = .interrupted t := by
  refine ⟨arrive k, { value := n, thr := List.replicate k .inL }, by simpa using arrive_ok n 0 k, ?_, rfl, ?_⟩
  · simp [St.inside, List.countP_replicate, TS.inside]
  · clear n
    induction k with
    | zero => simp [arrive]
    | succ k ih =>
      intro e he
      simp only [arrive, List.mem_append, List.mem_cons, List.not_mem_nil, or_false] at he
      rcases he with he | rfl | rfl
      · exact ih e he
      · exact ⟨k, .inl rfl⟩
      · exact ⟨k, .inr rfl⟩

/-- C147: the damage stays.  After `k` interrupted lockers have come and gone the semaphore admits `n + k` threads. -/
theorem C147_permits_grow (n k : Nat) : ∃ es, run (init n k) es = some (init (n + k) k) := by
  refine ⟨arrive k ++ depart k, ?_⟩
  rw [run_append (s' := { value := n, thr := List.replicate k .inL }) (by simpa using arrive_ok n 0 k)]
  simpa [init] using depart_ok n 0 k

/-- C147: when nobody is inside at the end of a run, the semaphore has its `n` permits back exactly if as many were lost as made. -/
theorem C147_restored_iff {n k : Nat} {es : List Ev} {s : St} (h : run (init n k) es = some s) (h0 : s.inside = 0) :
    s.value = n ↔ madeAll (init n k) es = 0 := by
  have := C147_account h
  rw [h0] at this
  omega

/-- C147: locking a `UniqueLocker` twice takes two permits and returns one; on a semaphore with one permit the second call waits for ever
(unless a signal comes). -/
theorem C147_relock (n k : Nat) {t : Nat} (ht : t < k) :
    (∃ s, run (init (n + 2) k) [.make t, .lock t, .granted t, .lock t, .granted t, .leave t] = some s ∧ s.value = n + 1 ∧ s.inside = 0) ∧
    ∃ s, run (init 1 k) [.make t, .lock t, .granted t, .lock t] = some s ∧ step s (.granted t) = none := by
  constructor
  · refine ⟨{ value := n + 1, thr := List.replicate k .idle }, ?_, rfl, ?_⟩
    · simp [run, step, init, Ev.thread, act, ht, List.getElem?_replicate]
    · simp [St.inside, List.countP_replicate, TS.inside]
  · simp [run, step, init, Ev.thread, act, ht, List.getElem?_replicate]

/-- A careful run in which one of two permits is taken by a `Locker`, the other by a `UniqueLocker`, and a third thread is refused. -/
example : ∃ s, run (init 2 3) [.enter 0, .granted 0, .make 1, .lock 1, .granted 1, .make 2, .tryLock 2, .enter 3] = none ∧
    run (init 2 3) [.enter 0, .granted 0, .make 1, .lock 1, .granted 1, .make 2, .tryLock 2] = some s ∧ s.inside = 2 ∧ s.value = 0 ∧
    s.thr = [.inL, .uniq true, .uniq false] :=
  ⟨_, by decide, rfl, by decide, rfl, rfl⟩

example : Careful (init 2 3) [.enter 0, .granted 0, .make 1, .lock 1, .granted 1, .unlock 1, .leave 0] := by
  simp [Careful, init, step, act, careful, Ev.thread]

/-! The theorems at two permits and three threads. -/

theorem SemaLockerLemmas.exCareful : Careful (init 2 3) [.enter 0, .granted 0, .make 1, .lock 1] := by
  simp [Careful, init, step, act, careful, Ev.thread]

example := C147_conserved_partial SemaLockerLemmas.exCareful rfl
example := C147_bound_partial SemaLockerLemmas.exCareful rfl
example := C147_admission_partial (n := 2) (k := 3) (es := [.enter 0]) (by simp [Careful, init, step, act, careful, Ev.thread]) rfl (t := 0) rfl
example := C147_account (n := 2) (k := 3) (es := [.enter 0, .granted 0, .make 1, .lock 1, .granted 1]) rfl
example := C147_restored_iff (n := 2) (k := 3) (es := [.enter 0, .granted 0, .leave 0]) rfl (by decide)

end Flame
