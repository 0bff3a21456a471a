import Verif.Own.Spec

/-!
# The Windows spin lock: src/Os/Windows/Threads/SpinFunctions.cpp

Any number of threads call `lock`, `tryLock` and `unlock` on one `os::SpinContext`.  Each Interlocked call is one
indivisible step; between two of them any other thread may run.
Simplifications: the statuses returned by `lock` and `unlock` are always `STATUS_SUCCESS` and not kept.
-/

namespace Flame.WinSpin
open Flame.Own (upd)

/-- include/FlameIDE/Os/Windows/Constants.hpp:55 `OS_SPINLOCK_VALUE_UNLOCKED` -/
def UNLOCKED : BitVec 32 := 1
/-- include/FlameIDE/Os/Windows/Constants.hpp:56 `OS_SPINLOCK_VALUE_LOCKED` -/
def LOCKED : BitVec 32 := 2
/-- include/FlameIDE/Os/Windows/Constants.hpp:57 `OS_SPINLOCK_INITIALIZER`: the context after `destroy` (line 21)
and of a moved-from `Spin` -/
def DEAD : BitVec 32 := 0x7fffffff

/-- Where a thread is. -/
inductive Pc where
  | idle
  /-- in `lock`, about to perform the InterlockedAnd of `tryLock` (lines 27, 35) -/
  | lockAnd
  /-- in `lock`, about to perform the InterlockedExchange of `tryLock` (lines 27, 42) -/
  | lockXchg
  /-- in `tryLock`, about to perform the InterlockedAnd (line 35) -/
  | tryAnd
  /-- in `tryLock`, about to perform the InterlockedExchange (line 42) -/
  | tryXchg
  /-- `lock` returned, or `tryLock` returned `TRY_LOCK_OK`, and the thread has not unlocked since -/
  | holds
  deriving DecidableEq, Repr

structure St where
  value : BitVec 32
  pc : Nat → Pc

/-- spin::init, SpinFunctions.cpp:12-17 -/
def init : St := { value := UNLOCKED, pc := fun _ => .idle }

/-- What a thread may do next: call a function, perform its next Interlocked step, unlock. -/
inductive Act where
  | callLock | callTry | tick | unlock
  deriving DecidableEq, Repr

/-- The InterlockedAnd of `tryLock` (SpinFunctions.cpp:35-36): stores `value & LOCKED`, and the old value decides
whether the lock counts as busy. -/
def andStep (s : St) (t : Nat) (busy ok : Pc) : St :=
  { value := s.value &&& LOCKED, pc := upd s.pc t (if s.value = LOCKED then busy else ok) }

/-- One step of thread `t`; `none`: the thread is not in a position to do that.
`lock` (25-29) repeats `tryLock` while the result differs from `TRY_LOCK_BUSY`, so the busy outcome ends it;
`tryLock` (31-45); `unlock` (47-52). -/
def step (s : St) (t : Nat) (a : Act) : Option St :=
  match s.pc t, a with
  | .idle, .callLock => some { s with pc := upd s.pc t .lockAnd }
  | .idle, .callTry => some { s with pc := upd s.pc t .tryAnd }
  | .lockAnd, .tick => some (andStep s t .holds .lockXchg)
  | .lockXchg, .tick => some { value := LOCKED, pc := upd s.pc t .lockAnd }
  | .tryAnd, .tick => some (andStep s t .idle .tryXchg)
  | .tryXchg, .tick => some { value := LOCKED, pc := upd s.pc t .holds }
  | .holds, .unlock => some { value := UNLOCKED, pc := upd s.pc t .idle }
  | _, _ => none

/-- A schedule: which thread performs which step, in order. -/
def run : St → List (Nat × Act) → Option St
  | s, [] => some s
  | s, (t, a) :: l => (step s t a).bind fun s' => run s' l

end Flame.WinSpin
