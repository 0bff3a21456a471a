import Verif.Win.Mutex

/-!
# C112: a Windows mutex is held by one thread at a time, and every call reports what happened
-/

namespace Flame.WinMutex
open Flame.Own (upd upd_self upd_ne)

/-- The specification: at most one thread holds the mutex. -/
def Exclusive (s : St) : Prop := ∀ t u, (s.th t).holds = true → (s.th u).holds = true → t = u

/-- The count is 1 and nobody holds it, or 0 and exactly one thread does. -/
inductive Inv (s : St) : Prop
  | free : s.count = 1 → (∀ t, (s.th t).holds = false) → Inv s
  | held (k : Nat) : s.count = 0 → (∀ t, (s.th t).holds = decide (t = k)) → Inv s

theorem inv_init : Inv init := .free rfl fun _ => rfl

theorem inv_step {s s' : St} {t : Nat} {a : Act} (h : Inv s) (hf : Fair s t a) (hs : step s t a = some s') : Inv s' := by
  have keep : ∀ th : Th, th.holds = (s.th t).holds → Inv { s with th := upd s.th t th } := by
    intro th he
    cases h with
    | free hc hh =>
      refine .free hc fun u => ?_
      by_cases hu : u = t
      · simp [upd, hu, he, hh]
      · simp [upd, hu, hh]
    | held k hc hh =>
      refine .held k hc fun u => ?_
      by_cases hu : u = t
      · simp [upd, hu, he, hh]
      · simp [upd, hu, hh]
  have take : 0 < s.count → Inv { count := s.count - 1, th := upd s.th t ⟨true, false, 0⟩ } := by
    intro hp
    cases h with
    | free hc hh =>
      refine .held t (by simp [hc]) fun u => ?_
      by_cases hu : u = t
      · simp [hu]
      · simp [upd, hu, hh]
    | held k hc hh => omega
  cases hw : (s.th t).waiting <;> cases a <;> simp only [step, hw] at hs <;> try contradiction
  case false.callLock => injection hs with hs; subst hs; exact keep _ rfl
  case true.acquire =>
    by_cases hp : 0 < s.count
    · rw [if_pos hp] at hs; injection hs with hs; subst hs; exact take hp
    · rw [if_neg hp] at hs; cases hs
  case true.lockFail e => injection hs with hs; subst hs; exact keep _ rfl
  case false.tryLock =>
    by_cases hp : 0 < s.count
    · rw [if_pos hp] at hs; injection hs with hs; subst hs; exact take hp
    · rw [if_neg hp] at hs; injection hs with hs; subst hs; exact keep _ rfl
  case false.tryFail e => injection hs with hs; subst hs; exact keep _ rfl
  case false.unlock =>
    simp only [Fair] at hf
    cases h with
    | free hc hh => rw [hh] at hf; cases hf
    | held k hc hh =>
      rw [if_pos (by rw [hc]; decide)] at hs; injection hs with hs; subst hs
      have hk : t = k := by rw [hh] at hf; exact of_decide_eq_true hf
      refine .free (by simp [hc]) fun u => ?_
      by_cases hu : u = t
      · simp [hu]
      · have : ¬ u = k := fun e => hu (e.trans hk.symm)
        simp [upd, hu, hh, this]
  case false.unlockFail e => injection hs with hs; subst hs; exact keep _ rfl

theorem Run.inv {s : St} (h : Run init s) : Inv s := by
  induction h with
  | refl => exact inv_init
  | tail t x _ hf hs ih => exact inv_step ih hf hs

/-- C112: whatever the schedule, and whichever system calls fail, at most one thread holds the mutex. -/
theorem C112_exclusion {s : St} (h : Run init s) : Exclusive s := by
  intro t u ht hu
  cases h.inv with
  | free hc hh => rw [hh] at ht; cases ht
  | held k hc hh =>
    rw [hh] at ht hu
    rw [of_decide_eq_true ht, of_decide_eq_true hu]

/-- C112: a thread waiting in `lock` gets through exactly when nobody holds the mutex, and then holds it with
status success. -/
theorem C112_lock_exact {s : St} (h : Run init s) (t : Nat) (hw : (s.th t).waiting = true) :
    ((∃ s', step s t .acquire = some s') ↔ ∀ u, (s.th u).holds = false) ∧
    ∀ s', step s t .acquire = some s' → s'.th t = ⟨true, false, 0⟩ ∧ s'.count = 0 ∧ ∀ u, u ≠ t → s'.th u = s.th u := by
  cases h.inv with
  | free hc hh =>
    simp only [step, hw, hc, Nat.lt_add_one, if_true]
    refine ⟨⟨fun _ => hh, fun _ => ⟨_, rfl⟩⟩, ?_⟩
    intro s' e
    injection e with e; subst e
    exact ⟨by simp, rfl, fun u hu => by simp [upd, hu]⟩
  | held k hc hh =>
    simp only [step, hw, hc, Nat.lt_irrefl, if_false]
    refine ⟨⟨fun ⟨_, e⟩ => (nomatch e), fun e => ?_⟩, fun _ e => (nomatch e)⟩
    have := e k
    rw [hh] at this
    simp at this

/-- C112: `tryLock` returns OK exactly when nobody holds the mutex, and then the caller holds it; otherwise it
returns busy (`-EBUSY`) and changes nothing else. -/
theorem C112_try_exact {s : St} (h : Run init s) (t : Nat) (hw : (s.th t).waiting = false) :
    ∃ s', step s t .tryLock = some s' ∧
      ((∀ u, (s.th u).holds = false) → s'.th t = ⟨true, false, 0⟩) ∧
      ((∃ u, (s.th u).holds = true) → s'.th t = ⟨(s.th t).holds, false, -16⟩ ∧ s'.count = s.count) ∧
      ∀ u, u ≠ t → s'.th u = s.th u := by
  cases h.inv with
  | free hc hh =>
    refine ⟨⟨0, upd s.th t ⟨true, false, 0⟩⟩, by simp [step, hw, hc], by simp, fun ⟨u, hu⟩ => ?_, fun u hu => by simp [upd, hu]⟩
    rw [hh] at hu; cases hu
  | held k hc hh =>
    refine ⟨⟨s.count, upd s.th t { s.th t with ret := BUSY }⟩, by simp [step, hw, hc], fun e => ?_, fun _ => by simp [hw, BUSY],
      fun u hu => by simp [upd, hu]⟩
    have := e k; simp [hh] at this

/-- C112: `unlock` by the holder frees the mutex, with status success; any waiting thread can then get it. -/
theorem C112_unlock_exact {s : St} (h : Run init s) (t : Nat) (hh : (s.th t).holds = true) (hw : (s.th t).waiting = false) :
    ∃ s', step s t .unlock = some s' ∧ s'.th t = ⟨false, false, 0⟩ ∧ (∀ u, (s'.th u).holds = false) ∧
      ∀ u, (s'.th u).waiting = true → ∃ s'', step s' u .acquire = some s'' := by
  cases h.inv with
  | free hc hf => rw [hf] at hh; cases hh
  | held k hc hk =>
    have htk : t = k := by rw [hk] at hh; exact of_decide_eq_true hh
    refine ⟨⟨1, upd s.th t ⟨false, false, 0⟩⟩, by simp [step, hw, hc, MAX], by simp, fun u => ?_, fun u hu => ?_⟩
    · by_cases hu : u = t
      · simp [hu]
      · have : ¬ u = k := fun e => hu (e.trans htk.symm)
        simp [upd, hu, hk, this]
    · simp only [step]
      simp only at hu
      rw [hu]
      simp

/-- C112: unlocking a mutex nobody holds is refused with an error, and changes nothing. -/
theorem C112_unlock_free {s : St} (h : Run init s) (t : Nat) (hw : (s.th t).waiting = false) (hn : ∀ u, (s.th u).holds = false) :
    ∃ s', step s t .unlock = some s' ∧ s'.th t = ⟨false, false, -TOO_MANY⟩ ∧ s'.count = s.count ∧
      ∀ u, u ≠ t → s'.th u = s.th u := by
  cases h.inv with
  | free hc hf =>
    refine ⟨⟨s.count, upd s.th t { s.th t with ret := -TOO_MANY }⟩, by simp [step, hw, hc, MAX], ?_, rfl, fun u hu => by simp [upd, hu]⟩
    simp [hw, hn]
  | held k hc hk => have := hn k; simp [hk] at this

/-- C112: a call whose system call fails with error `e` ends with status `-e` and changes nothing else: the thread waits no
longer, holds what it held, and the count stays. -/
theorem C112_fail_exact (s : St) (t e : Nat) :
    ((s.th t).waiting = true →
      ∃ s', step s t (.lockFail e) = some s' ∧ s'.th t = ⟨(s.th t).holds, false, -(e : Int)⟩ ∧ s'.count = s.count ∧ ∀ u, u ≠ t → s'.th u = s.th u) ∧
    ((s.th t).waiting = false → ∀ a, a = .tryFail e ∨ a = .unlockFail e →
      ∃ s', step s t a = some s' ∧ s'.th t = ⟨(s.th t).holds, false, -(e : Int)⟩ ∧ s'.count = s.count ∧ ∀ u, u ≠ t → s'.th u = s.th u) := by
  refine ⟨fun hw => ?_, fun hw a ha => ?_⟩
  · exact ⟨⟨s.count, upd s.th t ⟨(s.th t).holds, false, -(e : Int)⟩⟩, by simp [step, hw], by simp, rfl, fun u hu => by simp [upd, hu]⟩
  · refine ⟨⟨s.count, upd s.th t ⟨(s.th t).holds, false, -(e : Int)⟩⟩, ?_, by simp, rfl, fun u hu => by simp [upd, hu]⟩
    rcases ha with rfl | rfl <;> simp [step, hw]

example : (init.th 3).waiting = false := rfl
example : ∃ s, step init 3 .callLock = some s ∧ (s.th 3).waiting = true := ⟨_, rfl, by simp⟩

/-- C112: a call that returned success did its work: the only ways to end a call with status 0 are to take the
mutex or to unlock it. -/
theorem C112_success_means {s s' : St} {t : Nat} {a : Act} (hf : Fair s t a) (hs : step s t a = some s')
    (ha : a ≠ .callLock) (h0 : (s'.th t).ret = 0) :
    (a = .acquire ∨ a = .tryLock) ∧ (s'.th t).holds = true ∨ a = .unlock ∧ (s'.th t).holds = false := by
  cases hw : (s.th t).waiting <;> cases a <;> simp only [step, hw] at hs <;> try contradiction
  case true.acquire =>
    by_cases hp : 0 < s.count
    · rw [if_pos hp] at hs; injection hs with hs; subst hs; simp
    · rw [if_neg hp] at hs; cases hs
  case true.lockFail e =>
    injection hs with hs; subst hs
    simp only [upd_self, Fair] at h0 hf; omega
  case false.tryLock =>
    by_cases hp : 0 < s.count
    · rw [if_pos hp] at hs; injection hs with hs; subst hs; simp
    · rw [if_neg hp] at hs; injection hs with hs; subst hs
      simp [BUSY] at h0
  case false.tryFail e =>
    injection hs with hs; subst hs
    simp only [upd_self, Fair] at h0 hf; omega
  case false.unlock =>
    by_cases hp : s.count < MAX
    · rw [if_pos hp] at hs; injection hs with hs; subst hs; simp
    · rw [if_neg hp] at hs; injection hs with hs; subst hs
      simp [TOO_MANY] at h0
  case false.unlockFail e =>
    injection hs with hs; subst hs
    simp only [upd_self, Fair] at h0 hf; omega

/-- C112 (violated): a thread that locks the mutex it already holds never returns, and neither does anybody else who
locks it, however long the program goes on: until a system call of the thread fails, it keeps waiting, and the mutex
stays taken. -/
theorem C112_relock_violated {s s' : St} {t : Nat} (h : Run init s) (hh : (s.th t).holds = true)
    (hw : (s.th t).waiting = true) {u : Nat} {a : Act} (hf : Fair s u a) (ha : ∀ e, (u, a) ≠ (t, .lockFail e))
    (hs : step s u a = some s') :
    (s'.th t).holds = true ∧ (s'.th t).waiting = true ∧ s'.count = 0 ∧ a ≠ .acquire := by
  have hr := h.inv
  have hi' := inv_step hr hf hs
  have h0 : s.count = 0 := by
    cases hr with
    | free hc hf => rw [hf] at hh; cases hh
    | held k hc hk => exact hc
  have hother : ∀ v, (s.th v).holds = true → v = t := fun v hv => C112_exclusion h v t hv hh
  have hacq : a ≠ .acquire := by
    intro e; subst e
    cases hwu : (s.th u).waiting <;> simp [step, hwu, h0] at hs
  by_cases hut : u = t
  · subst hut
    cases a <;> simp only [step, hw] at hs <;> try contradiction
    · exact absurd rfl (ha _)
  · have hsame : s'.th t = s.th t := by
      have ht : t ≠ u := fun e => hut e.symm
      cases hwu : (s.th u).waiting <;> cases a <;> simp only [step, hwu] at hs <;> try contradiction
      all_goals first
        | (injection hs with hs; subst hs; simp [upd, ht])
        | (split at hs
           · injection hs with hs; subst hs; simp [upd, ht]
           · first | (injection hs with hs; subst hs; simp [upd, ht]) | cases hs)
    refine ⟨by rw [hsame]; exact hh, by rw [hsame]; exact hw, ?_, hacq⟩
    cases hi' with
    | free hc hf => have := hf t; rw [hsame, hh] at this; cases this
    | held k hc hk => exact hc

/-- A state in which thread 1 holds the mutex and locks it again. -/
def relocked : St := ⟨0, upd (upd (fun _ => ⟨false, false, 0⟩) 1 ⟨true, false, 0⟩) 1 ⟨true, true, 0⟩⟩

theorem relocked_run : Run init relocked :=
  .tail 1 .callLock (.tail 1 .tryLock (.refl _) trivial rfl) trivial rfl

example : (relocked.th 1).holds = true ∧ (relocked.th 1).waiting = true ∧ (relocked.th 0).waiting = false := by decide

/-- C112 (violated): a thread that unlocks a mutex another thread holds is not stopped: it gets success, and the mutex
can be taken a second time. -/
theorem C112_foreign_unlock_violated {s : St} (h : Run init s) {t u : Nat} (htu : t ≠ u) (hu : (s.th u).holds = true)
    (hw : (s.th t).waiting = false) :
    ∃ s' s'', step s t .unlock = some s' ∧ (s'.th t).ret = 0 ∧ (s'.th u).holds = true ∧
      step s' t .tryLock = some s'' ∧ (s''.th t).holds = true ∧ (s''.th u).holds = true := by
  have h0 : s.count = 0 := by
    cases h.inv with
    | free hc hf => rw [hf] at hu; cases hu
    | held k hc hk => exact hc
  have hut : u ≠ t := fun e => htu e.symm
  refine ⟨⟨1, upd s.th t ⟨false, false, 0⟩⟩, ⟨0, upd (upd s.th t ⟨false, false, 0⟩) t ⟨true, false, 0⟩⟩, ?_, by simp, ?_, ?_, by simp, ?_⟩
  · simp [step, hw, h0, MAX]
  · simp [upd, hut, hu]
  · simp [step]
  · simp [upd, hut, hu]

/-! The theorems at concrete states: thread 1 holds the mutex, thread 2 waits for it. -/

theorem exHeld : Run init ⟨0, upd (fun _ => ⟨false, false, 0⟩) 1 ⟨true, false, 0⟩⟩ := .tail 1 .tryLock (.refl _) trivial rfl

theorem exWait : Run init ⟨0, upd (upd (fun _ => ⟨false, false, 0⟩) 1 ⟨true, false, 0⟩) 2 ⟨false, true, 0⟩⟩ := .tail 2 .callLock exHeld trivial rfl

theorem exRelock : Run init relocked := .tail 1 .callLock exHeld trivial rfl

example := C112_exclusion exWait
example := C112_lock_exact exWait 2 rfl
example := C112_try_exact exWait 3 rfl
example := C112_unlock_exact exWait 1 rfl rfl
example := C112_unlock_free (.refl _) 3 rfl (fun _ => rfl)
example := C112_success_means (s := init) (t := 3) (a := .tryLock) trivial rfl (by decide) rfl
example := C112_relock_violated exRelock (t := 1) rfl rfl (u := 2) (a := .tryLock) trivial (by simp) rfl
example := C112_foreign_unlock_violated exHeld (t := 2) (u := 1) (by decide) rfl rfl

end Flame.WinMutex
