import Verif.Os.Status

/-! # C72: the status of a thread primitive tells what happened -/

namespace Flame.Os.Status

/-- **Specification**: success is reported as 0, a failure as the negated error code. -/
def truth : Outcome → Int
  | none => 0
  | some c => -(c : Int)

/-- **Specification** (POSIX): the functions below which call a `sem_*` function. -/
def semaphores : List Fn := [.semInit, .semDestroy, .semPost, .semWait]

/-- A failure has a positive code. -/
def Real (out : Outcome) : Prop := ∀ c, out = some c → 0 < c

end Flame.Os.Status

namespace Flame

open Os.Status

/-- **C72, semaphores.** Every semaphore function reports the truth, for every outcome and every previous `errno`. -/
theorem C72_semaphore_status {f : Fn} (hf : f ∈ semaphores) (out : Outcome) (e : Int) :
    status f out e = truth out := by
  have hf : f.convention = .setsErrno := by cases f <;> revert hf <;> decide
  unfold status
  rw [hf]
  cases out <;> simp [nativeRet, errnoAfter, returnResult, truth]

/-- **C72, try-locks.** `tryLock` of mutexes and spin locks answers `true` exactly when the lock was taken; the
status is changed only by failures other than "busy", to the truth. -/
theorem C72_try_lock {out : Outcome} (hr : Real out) (old : Int) :
    ((classTryLock out old).1 = true ↔ out = none) ∧
    (classTryLock out old).2 = if out = none ∨ out = some 16 then old else truth out := by
  cases out with
  | none => simp [classTryLock, tryLock, nativeRet, TRY_LOCK_OK]
  | some c =>
    have hc := hr c rfl
    have h0 : ¬ (-(c : Int) = 0) := by omega
    by_cases hb : c = 16
    · subst hb; simp [classTryLock, tryLock, nativeRet, TRY_LOCK_OK, TRY_LOCK_BUSY, EBUSY]
    · have hb' : ¬ (-(c : Int) = -(EBUSY : Int)) := by simp only [EBUSY]; omega
      simp only [classTryLock, tryLock, nativeRet, TRY_LOCK_OK, TRY_LOCK_BUSY, truth, if_neg h0, hb', ne_eq,
        not_false_eq_true, if_true, reduceCtorEq, Option.some.injEq, hb, or_false, if_false, Bool.false_eq_true,
        and_self]

/-- **C72, `tryWait`, what holds.** For the error codes POSIX documents for `sem_trywait` (EAGAIN 11, EDEADLK 35, EINTR 4, EINVAL 22), `tryWait` answers `true`
exactly when the semaphore was decremented. -/
theorem C72_try_wait_partial {out : Outcome} (hd : ∀ c, out = some c → c ∈ [11, 35, 4, 22])
    (e old : Int) : ((classTryWait out e old).1 = true ↔ out = none) ∧
    (classTryWait out e old).2 = if out = none ∨ out = some 11 then old else truth out := by
  cases out with
  | none =>
    simp [classTryWait, semTryWait, nativeRet, errnoAfter, returnResult, TRY_LOCK_OK, EAGAIN, EDEADLK, EINTR, EINVAL]
  | some c =>
    have hc := hd c rfl
    simp only [List.mem_cons, List.not_mem_nil, or_false] at hc
    rcases hc with hc | hc | hc | hc <;> subst hc <;> simp [classTryWait, semTryWait, nativeRet, errnoAfter, returnResult,
      TRY_LOCK_OK, EAGAIN, EDEADLK, EINTR, EINVAL, TRY_LOCK_BUSY, EBUSY, TRY_LOCK_DEAD_LOCK, TRY_LOCK_INTERRUPT,
      TRY_LOCK_INVALID, truth]

/-- **C72 fails.** Any other failure of `sem_trywait` is reported as a successful decrement. -/
theorem C72_try_wait_violated {c : Nat} (hc : c ∉ [11, 35, 4, 22]) (e old : Int) :
    classTryWait (some c) e old = (true, old) := by
  simp only [List.mem_cons, List.not_mem_nil, or_false, not_or] at hc
  have h1 : ¬ (-(c : Int) = -(EAGAIN : Int)) := by simp only [EAGAIN]; omega
  have h2 : ¬ (-(c : Int) = -(EDEADLK : Int)) := by simp only [EDEADLK]; omega
  have h3 : ¬ (-(c : Int) = -(EINTR : Int)) := by simp only [EINTR]; omega
  have h4 : ¬ (-(c : Int) = -(EINVAL : Int)) := by simp only [EINVAL]; omega
  simp [classTryWait, semTryWait, nativeRet, errnoAfter, returnResult, h1, h2, h3, h4, TRY_LOCK_OK]

/-- **C72, semaphore value.** The value is the semaphore's value when the call succeeds and the negated error code
otherwise, so the sign tells the two apart. -/
theorem C72_semaphore_value {out : Outcome} (hr : Real out) (v : Nat) (e : Int) :
    semValue out v e = (match out with | none => (v : Int) | some c => -(c : Int)) ∧
    (semValue out v e < 0 ↔ out ≠ none) := by
  cases out with
  | none => simp [semValue, nativeRet, returnResult]
  | some c =>
    have hc := hr c rfl
    have : -(c : Int) < 0 := by omega
    simp [semValue, nativeRet, errnoAfter, returnResult]
    omega

/-- **C72, mutexes, spin locks and threads, exactly.** A failing call is reported as the negated value `errno` had
*before* the call: the error code itself, which these functions return, is thrown away. -/
theorem C72_pthread_exact {f : Fn} (hf : f ∉ semaphores) {out : Outcome} (hr : Real out) (e : Int) :
    status f out e = if out = none then 0 else -e := by
  have hf : f.convention = .returnsCode := by cases f <;> revert hf <;> decide
  unfold status
  rw [hf]
  cases out with
  | none => simp [nativeRet, errnoAfter, returnResult]
  | some c =>
    have hc := hr c rfl
    have : ¬ ((c : Int) = 0) := by omega
    simp [nativeRet, errnoAfter, returnResult]
    omega

/-- **C72 fails.** With `errno = 0` (the state of a fresh thread) every failure of a mutex, spin lock or thread function
is reported as success. -/
theorem C72_pthread_failure_hidden {f : Fn} (hf : f ∉ semaphores) {c : Nat} (hc : 0 < c) :
    status f (some c) 0 = 0 ∧ status f (some c) 0 ≠ truth (some c) := by
  have := C72_pthread_exact hf (out := some c) (by intro d hd; injection hd with hd; omega) 0
  rw [this]
  refine ⟨by simp, ?_⟩
  simp [truth]
  omega

/-- **C72, what holds for them.** When `errno` is not 0 before the call, success and failure are told apart — but the code
is right only if it happens to be the one already in `errno`. -/
theorem C72_pthread_partial {f : Fn} (hf : f ∉ semaphores) {out : Outcome} (hr : Real out) {e : Int}
    (he : e ≠ 0) : (status f out e = 0 ↔ out = none) ∧
    (status f out e = truth out ↔ out = none ∨ ∃ c : Nat, out = some c ∧ e = c) := by
  rw [C72_pthread_exact hf hr]
  cases out with
  | none => simp [truth]
  | some c =>
    simp [truth]
    omega

/-- **C72 fails, initialisation.** With `errno = 0` a mutex whose attributes could not be initialised is created from them
nevertheless, and whatever happens the result is "success". -/
theorem C72_mutex_init_violated (c : Nat) (mtx : Outcome) :
    mutexInit (some c) mtx 0 = (0, true) := by
  have h0 : ∀ o : Outcome, pthreadStatus o 0 = 0 := by
    intro o
    cases o with
    | none => rfl
    | some c => simp [pthreadStatus, nativeRet, errnoAfter, returnResult]
  simp [mutexInit, h0]

/-- **C72, initialisation, what holds.** With `errno > 0` the creation is attempted only with good attributes, and success
is reported exactly when both calls succeed. -/
theorem C72_mutex_init_partial {attr mtx : Outcome} (h1 : Real attr) (h2 : Real mtx) {e : Int} (he : 0 < e) :
    ((mutexInit attr mtx e).1 = 0 ↔ attr = none ∧ mtx = none) ∧ ((mutexInit attr mtx e).2 = true ↔ attr = none) := by
  have hs : ∀ {o : Outcome}, Real o → pthreadStatus o e = if o = none then 0 else -e :=
    fun {o} ho => C72_pthread_exact (f := .mutexLock) (by decide) ho e
  unfold mutexInit
  rw [hs h1, hs h2]
  have hz : ¬ (e = 0) := by omega
  cases attr <;> cases mtx <;> simp [he, hz]

/-- **C72, initialisation, exactly.** The mutex is created unless the attributes failed while `errno` was positive. -/
theorem C72_mutex_init_exact {attr mtx : Outcome} (h1 : Real attr) (h2 : Real mtx) (e : Int) :
    mutexInit attr mtx e = if attr ≠ none ∧ 0 < e then (-e, false) else (if mtx = none then 0 else -e, true) := by
  have hs : ∀ {o : Outcome}, Real o → pthreadStatus o e = if o = none then 0 else -e :=
    fun {o} ho => C72_pthread_exact (f := .mutexLock) (by decide) ho e
  unfold mutexInit
  rw [hs h1, hs h2]
  cases attr <;> cases mtx <;> simp

/-- **C72 fails, destruction.** When both parts of a mutex context are destroyed, a failure to destroy the mutex itself
(it is still locked, say) is never reported: the second status overwrites the first. -/
theorem C72_mutex_destroy_violated (c : Nat) (e : Int) :
    mutexDestroy false false (some c) none e = 0 := by
  simp [mutexDestroy, pthreadStatus, nativeRet, errnoAfter, returnResult]

/-- **C72, detaching, exactly.** A failing `pthread_detach` is reported as the old `errno`; with `errno = 0` the attributes
are then destroyed as if the thread had been detached, and success is reported. -/
theorem C72_detach_exact {det attr : Outcome} (h1 : Real det) (h2 : Real attr) (e : Int) :
    threadDetach det attr e = if det = none ∧ attr = none then 0 else -e := by
  have hs : ∀ {o : Outcome}, Real o → pthreadStatus o e = if o = none then 0 else -e :=
    fun {o} ho => C72_pthread_exact (f := .mutexLock) (by decide) ho e
  unfold threadDetach
  rw [hs h1, hs h2]
  cases det <;> cases attr <;> simp [returnResult] <;> omega

/-! ## Concrete cases -/

example : status .semWait (some EINTR) 7 = -4 := by decide
example : classTryLock (some EBUSY) 0 = (false, 0) ∧ classTryLock (some EINVAL) 0 = (false, -22) := by decide
example : status .mutexLock (some EDEADLK) 0 = 0 ∧ status .mutexLock (some EDEADLK) 2 = -2 := by decide
example : status .threadCreate (some EAGAIN) 0 = 0 := by decide
example : classTryWait (some 38) 0 0 = (true, 0) := by decide
example : mutexInit (some 12) (some 22) 0 = (0, true) := by decide
example : mutexInit none (some 12) 5 = (-5, true) := by decide
example : mutexDestroy false false (some EBUSY) none 5 = 0 := by decide
example : threadDetach (some EINVAL) none 0 = 0 := by decide
example : Fn.semPost.convention = .setsErrno ∧ Fn.threadJoin.convention = .returnsCode := by decide

namespace Flame
open Os.Status
private theorem real5 : Real (some 5) := by rintro _ ⟨⟩; decide
example := C72_semaphore_status (f := .semWait) (by decide) (some EINTR) 7
example := C72_try_lock real5 0
example := C72_try_wait_partial (out := some EINTR) (by rintro _ ⟨⟩; decide) 0 0
example := C72_try_wait_violated (c := 38) (by decide) 0 0
example := C72_semaphore_value real5 3 0
example := C72_pthread_exact (f := .mutexLock) (by decide) real5 2
example := C72_pthread_failure_hidden (f := .mutexLock) (by decide) (c := EDEADLK) (by decide)
example := C72_pthread_partial (f := .mutexLock) (by decide) real5 (e := 2) (by decide)
example := C72_mutex_init_partial (attr := some 5) (mtx := some 5) real5 real5 (e := 5) (by decide)
example := C72_mutex_init_exact (attr := some 5) (mtx := some 5) real5 real5 0
end Flame

end Flame
