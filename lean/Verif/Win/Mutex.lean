import Verif.Own.Spec

/-!
# The Windows mutex: src/Os/Windows/Threads/MutexFunctions.cpp

The mutex is a kernel semaphore created with count 1 and maximum 1 (lines 17-24).  Threads interleave; each system
call is one indivisible step.  A system call may also fail, with any error the system chooses.
Simplifications: statuses are unbounded integers; `GetLastError` after a failed call is some `e > 0`; the handle is
valid (creation succeeded, the mutex is not destroyed while in use).
-/

namespace Flame.WinMutex
open Flame.Own (upd)

/-- src/Os/Threads/Common.hpp:13 `TRY_LOCK_BUSY = -EBUSY`; EBUSY is 16. -/
def BUSY : Int := -16
/-- ERROR_TOO_MANY_POSTS, what `ReleaseSemaphore` reports when the count is at its maximum. -/
def TOO_MANY : Int := 298

/-- One thread: whether it took the mutex and has not unlocked since, whether it is inside `lock`, and what its
last completed call returned. -/
structure Th where
  holds : Bool
  waiting : Bool
  ret : Int
  deriving DecidableEq, Repr

structure St where
  /-- count of the kernel semaphore -/
  count : Nat
  th : Nat → Th

/-- mutex::init, MutexFunctions.cpp:15-30: initial count 1 -/
def init : St := { count := 1, th := fun _ => ⟨false, false, 0⟩ }

/-- MutexFunctions.cpp:17, 22: the maximum given to CreateSemaphoreA -/
def MAX : Nat := 1

inductive Act where
  /-- `lock` is called (42-45): the thread starts waiting -/
  | callLock
  /-- the wait of `lock` ends with WAIT_OBJECT_0 -/
  | acquire
  /-- the wait of `lock` fails (46-49) -/
  | lockFail (e : Nat)
  /-- a complete `tryLock` whose wait does not fail (53-69) -/
  | tryLock
  /-- a complete `tryLock` whose wait fails (64-66) -/
  | tryFail (e : Nat)
  /-- a complete `unlock` (71-79) -/
  | unlock
  /-- a complete `unlock` whose ReleaseSemaphore fails for another reason than the count -/
  | unlockFail (e : Nat)
  deriving DecidableEq, Repr

/-- One step of thread `t`; `none`: impossible now. A thread that is waiting can do nothing else. -/
def step (s : St) (t : Nat) (a : Act) : Option St :=
  match (s.th t).waiting, a with
  | false, .callLock => some { s with th := upd s.th t { s.th t with waiting := true } }
  | true, .acquire =>
      if 0 < s.count then some { count := s.count - 1, th := upd s.th t ⟨true, false, 0⟩ } else none
  | true, .lockFail e => some { s with th := upd s.th t ⟨(s.th t).holds, false, -(e : Int)⟩ }
  | false, .tryLock =>
      if 0 < s.count then some { count := s.count - 1, th := upd s.th t ⟨true, false, 0⟩ }
      else some { s with th := upd s.th t { s.th t with ret := BUSY } }
  | false, .tryFail e => some { s with th := upd s.th t { s.th t with ret := -(e : Int) } }
  | false, .unlock =>
      if s.count < MAX then some { count := s.count + 1, th := upd s.th t ⟨false, false, 0⟩ }
      else some { s with th := upd s.th t { s.th t with ret := -TOO_MANY } }
  | false, .unlockFail e => some { s with th := upd s.th t { s.th t with ret := -(e : Int) } }
  | _, _ => none

/-- A thread unlocks only what it holds; failed system calls set a real error. -/
def Fair (s : St) (t : Nat) : Act → Prop
  | .unlock => (s.th t).holds = true
  | .lockFail e => 0 < e
  | .tryFail e => 0 < e ∧ (-(e : Int)) ≠ BUSY
  | .unlockFail e => 0 < e
  | _ => True

/-- States reachable when every thread behaves. -/
inductive Run : St → St → Prop
  | refl (s) : Run s s
  | tail {a b c} (t : Nat) (x : Act) : Run a b → Fair b t x → step b t x = some c → Run a c

end Flame.WinMutex
