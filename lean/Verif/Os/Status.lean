import Verif.Basic

/-!
# Status codes of the POSIX thread primitives

src/Os/Posix/Threads/{MutexFunctions,SpinFunctions,SemaphoreFunctions,ThreadFunctions}.cpp and the classes on top
(src/Os/Threads/{Mutex,Spin,Semaphore}.cpp).

The system decides whether a call succeeds; a failure has a positive error code.  There are two conventions
(POSIX): the `pthread_*` functions *return* the code and leave `errno` alone, the `sem_*` functions return −1 and
store the code in `errno`.
-/

namespace Flame.Os.Status

/-- What the system does with one call: `none` — success, `some c` — failure with error code `c`. -/
abbrev Outcome := Option Nat

/-- How a native function reports. -/
inductive Convention where
  | returnsCode
  | setsErrno
  deriving DecidableEq, Repr

/-- Value returned by the native function. -/
def nativeRet : Convention → Outcome → Int
  | _, none => 0
  | .returnsCode, some c => c
  | .setsErrno, some _ => -1

/-- `errno` after the native function. -/
def errnoAfter : Convention → Outcome → Int → Int
  | .setsErrno, some c, _ => c
  | _, _, e => e

/-- The macro `RETURN_RESULT` (MutexFunctions.cpp 6-13, SpinFunctions.cpp 6-13, SemaphoreFunctions.cpp 6-13,
ThreadFunctions.cpp 6-13). -/
def returnResult (ret errno : Int) : Int := if ret ≠ 0 then -errno else ret

/-- Functions that make one native call through the macro and return the status. -/
inductive Fn where
  /-- MutexFunctions.cpp 60-65 -/
  | mutexLock
  /-- MutexFunctions.cpp 72-77 -/
  | mutexUnlock
  /-- SpinFunctions.cpp 21-26 -/
  | spinInit
  /-- SpinFunctions.cpp 28-33 -/
  | spinDestroy
  /-- SpinFunctions.cpp 35-40 -/
  | spinLock
  /-- SpinFunctions.cpp 48-53 -/
  | spinUnlock
  /-- ThreadFunctions.cpp 21-26 -/
  | threadInit
  /-- ThreadFunctions.cpp 28-33 -/
  | threadDestroy
  /-- ThreadFunctions.cpp 35-44 -/
  | threadCreate
  /-- ThreadFunctions.cpp 62-68 -/
  | threadJoin
  /-- SemaphoreFunctions.cpp 21-26 -/
  | semInit
  /-- SemaphoreFunctions.cpp 28-33 -/
  | semDestroy
  /-- SemaphoreFunctions.cpp 35-40 -/
  | semPost
  /-- SemaphoreFunctions.cpp 42-47 -/
  | semWait
  deriving DecidableEq, Repr

/-- Convention of the native function called. -/
def Fn.convention : Fn → Convention
  | .semInit | .semDestroy | .semPost | .semWait => .setsErrno
  | _ => .returnsCode

/-- The status returned by a function when the system produces `out` and `errno` was `e` before. -/
def status (f : Fn) (out : Outcome) (e : Int) : Int :=
  returnResult (nativeRet f.convention out) (errnoAfter f.convention out e)

/-- One `pthread_*` call through the macro. -/
def pthreadStatus (out : Outcome) (e : Int) : Int :=
  returnResult (nativeRet .returnsCode out) (errnoAfter .returnsCode out e)

/-- `mutex::init` (MutexFunctions.cpp 21-43): outcomes of `pthread_mutexattr_init`, `pthread_mutex_init`.  Result: the
status and whether `pthread_mutex_init` was called. -/
def mutexInit (attr mtx : Outcome) (e : Int) : Int × Bool :=
  let s := pthreadStatus attr e
  if s < 0 then (s, false) else (pthreadStatus mtx e, true)

/-- `mutex::destroy` (MutexFunctions.cpp 45-58): each part is destroyed when its bytes differ from the initializer. -/
def mutexDestroy (objInit attrInit : Bool) (mtx attr : Outcome) (e : Int) : Int :=
  let s := if objInit then 0 else pthreadStatus mtx e
  if attrInit then s else pthreadStatus attr e

/-- `thread::detach` (ThreadFunctions.cpp 46-60) on a context whose attributes differ from the initializer. -/
def threadDetach (det attr : Outcome) (e : Int) : Int :=
  let s := pthreadStatus det e
  if s ≠ 0 then s else returnResult (pthreadStatus attr e) e

/-- Error codes (Linux values). -/
def EINTR : Nat := 4
def EAGAIN : Nat := 11
def EBUSY : Nat := 16
def EINVAL : Nat := 22
def EDEADLK : Nat := 35

/-- `TRY_LOCK_OK`, `TRY_LOCK_BUSY`, … (src/Os/Threads/Common.hpp 11-21). -/
def TRY_LOCK_OK : Int := 0
def TRY_LOCK_BUSY : Int := -(EBUSY : Int)
def TRY_LOCK_INVALID : Int := -(EINVAL : Int)
def TRY_LOCK_DEAD_LOCK : Int := -(EDEADLK : Int)
def TRY_LOCK_INTERRUPT : Int := -(EINTR : Int)

/-- `mutex::tryLock`, `spin::tryLock` (MutexFunctions.cpp 67-70, SpinFunctions.cpp 42-46). -/
def tryLock (out : Outcome) : Int := -(nativeRet .returnsCode out)

/-- `Mutex::tryLock`, `Spin::tryLock` (Mutex.cpp 62-74, Spin.cpp 63-76): the result and the new `status` member. -/
def classTryLock (out : Outcome) (old : Int) : Bool × Int :=
  let t := tryLock out
  if t = TRY_LOCK_OK then (true, old)
  else if t ≠ TRY_LOCK_BUSY then (false, t) else (false, old)

/-- `semaphore::tryWait` (SemaphoreFunctions.cpp 49-66). -/
def semTryWait (out : Outcome) (e : Int) : Int :=
  let s := returnResult (nativeRet .setsErrno out) (errnoAfter .setsErrno out e)
  if s = -(EAGAIN : Int) then TRY_LOCK_BUSY
  else if s = -(EDEADLK : Int) then TRY_LOCK_DEAD_LOCK
  else if s = -(EINTR : Int) then TRY_LOCK_INTERRUPT
  else if s = -(EINVAL : Int) then TRY_LOCK_INVALID
  else TRY_LOCK_OK

/-- `Semaphore::tryWait` (Semaphore.cpp 67-82). -/
def classTryWait (out : Outcome) (e old : Int) : Bool × Int :=
  let t := semTryWait out e
  if t = TRY_LOCK_OK then (true, old)
  else if t = TRY_LOCK_BUSY then (false, old) else (false, t)

/-- `semaphore::value` (SemaphoreFunctions.cpp 68-78): `v` is what `sem_getvalue` stores on success. -/
def semValue (out : Outcome) (v : Nat) (e : Int) : Int :=
  let s := returnResult (nativeRet .setsErrno out) (errnoAfter .setsErrno out e)
  if s < 0 then s else match out with
    | none => v
    | some _ => 0

end Flame.Os.Status
