import Verif.Basic

/-!
# The Windows semaphore: src/Os/Windows/Threads/SemaphoreFunctions.cpp

A kernel semaphore and, beside it, `context.value`, a copy of the count kept by hand.  Any number of threads call
`wait`, `tryWait`, `post` and `value` on one context.  Each system call and each Interlocked call is one
indivisible step.  Threads are anonymous: of the calls in progress only their number matters, and for `value` what
they have read.
Simplifications: `context.value` is an unbounded integer (the code's LONG wraps); a wait that blocks has not
happened yet; the handle is valid.
-/

namespace Flame.WinSema

/-- ERROR_INVALID_PARAMETER -/
def INVALID_PARAMETER : Int := 87

structure St where
  /-- count of the kernel semaphore -/
  count : Nat
  /-- its maximum -/
  max : Nat
  /-- `context.value` -/
  value : Int
  /-- calls of `wait`/`tryWait` that have acquired and not yet decremented -/
  acq : Nat
  /-- calls of `wait` whose wait failed and that have not yet decremented -/
  failed : Nat
  /-- calls of `post` that have released and not yet incremented -/
  rel : Nat
  /-- calls of `value` that have read `context.value` (the exchange argument) and not yet performed the
  InterlockedCompareExchange -/
  reads : List Int
  /-- history: successful waits, successful posts -/
  taken : Nat
  posted : Nat
  deriving DecidableEq, Repr

/-- semaphore::init, SemaphoreFunctions.cpp:45-55.  CreateSemaphoreA gets `value` both as initial and as maximal
count, and refuses a maximum that is not positive. -/
def init (value : Int) : Except Int St :=
  if 0 < value then
    .ok { count := value.toNat, max := value.toNat, value, acq := 0, failed := 0, rel := 0, reads := [], taken := 0, posted := 0 }
  else .error (-INVALID_PARAMETER)

inductive Act where
  /-- WaitForSingleObject in `wait` (74) or `tryWait` (88) ends with WAIT_OBJECT_0 -/
  | acquire
  /-- WaitForSingleObject in `wait` fails (75-78) -/
  | waitFail
  /-- `decrement` after a successful wait (80, 92) -/
  | decrement
  /-- `decrement` after a failed wait (80) -/
  | decrementFailed
  /-- WaitForSingleObject in `tryWait` ends with WAIT_TIMEOUT (94-96): TRY_LOCK_BUSY -/
  | busy
  /-- ReleaseSemaphore in `post` succeeds (107) -/
  | release
  /-- ReleaseSemaphore in `post` is refused because of the maximum (107-110) -/
  | refused
  /-- `increment` (113) -/
  | increment
  /-- `value`: reads `context.value` for the call in line 32 -/
  | read
  /-- `value`: InterlockedCompareExchange(&value, r, 1) in line 32 -/
  | cas (r : Int)
  deriving DecidableEq, Repr

/-- One step; `none`: impossible now. -/
def step (s : St) : Act → Option St
  | .acquire => if 0 < s.count then some { s with count := s.count - 1, acq := s.acq + 1, taken := s.taken + 1 } else none
  | .waitFail => some { s with failed := s.failed + 1 }
  | .decrement => if 0 < s.acq then some { s with acq := s.acq - 1, value := s.value - 1 } else none
  | .decrementFailed => if 0 < s.failed then some { s with failed := s.failed - 1, value := s.value - 1 } else none
  | .busy => if s.count = 0 then some s else none
  | .release => if s.count < s.max then some { s with count := s.count + 1, rel := s.rel + 1, posted := s.posted + 1 } else none
  | .refused => if s.count < s.max then none else some s
  | .increment => if 0 < s.rel then some { s with rel := s.rel - 1, value := s.value + 1 } else none
  | .read => some { s with reads := s.value :: s.reads }
  | .cas r => if r ∈ s.reads then
      some { s with reads := s.reads.erase r, value := if s.value = 1 then r else s.value } else none

def run : St → List Act → Option St
  | s, [] => some s
  | s, a :: l => (step s a).bind fun s' => run s' l

end Flame.WinSema
