import Verif.Basic

/-!
# Lockers on a counting semaphore, with signals — src/Os/Threads/Utils.cpp 40-45, 61-64, 78-102, 156-160, 186-205, 218-221, 235-238, 252-255

`Locker` and `UniqueLocker` over `Semaphore` (src/Os/Threads/Semaphore.cpp 57-82), on POSIX
(src/Os/Posix/Threads/SemaphoreFunctions.cpp 39-69).  Any number of threads, each with at most one locker on the one semaphore; they
interleave arbitrarily.  `sem_wait` either takes a permit and returns 0, or is interrupted by a signal handler and returns -1 with
`errno == EINTR` without taking one (POSIX; on Linux only handlers installed without SA_RESTART do that); `Semaphore::wait` records the status and returns in both cases, and neither locker looks at it.

Simplifications: `sem_post` always succeeds (no overflow of SEM_VALUE_MAX); `sem_trywait` interrupted behaves like a busy semaphore
(Semaphore.cpp 67-82 returns `false` for both); copies and moves of `UniqueLocker` are in `Conc/UniqueLocker.lean`; nobody uses the semaphore
except through lockers.
-/

namespace Flame.Conc.SemaLocker

/-- What a thread is doing with its locker. -/
inductive TS where
  | idle
  /-- in `sem_wait` inside the constructor of `Locker` (Utils.cpp 40-45) -/
  | waitL
  /-- between the constructor and the destructor of `Locker` -/
  | inL
  /-- owns a `UniqueLocker` with this `locked` flag -/
  | uniq (locked : Bool)
  /-- in `sem_wait` inside `UniqueLocker::lock` (Utils.cpp 186-191), the flag as it was before -/
  | waitU (locked : Bool)
  deriving DecidableEq, Repr

structure St where
  value : Nat
  thr : List TS
  deriving DecidableEq, Repr

/-- `Semaphore(n)` and `k` threads. -/
def init (n k : Nat) : St := { value := n, thr := List.replicate k .idle }

inductive Ev where
  /-- `Locker locker{ semaphore };` is called -/
  | enter (t : Nat)
  /-- `UniqueLocker locker{ semaphore };` -/
  | make (t : Nat)
  /-- `UniqueLocker locker{ semaphore, UniqueLocker::UNLOCK };` -/
  | makeUnlock (t : Nat)
  /-- `locker.lock()` is called (also `UniqueLocker{ semaphore, LOCK }`, after `make`) -/
  | lock (t : Nat)
  /-- `sem_wait` takes a permit and returns 0 -/
  | granted (t : Nat)
  /-- `sem_wait` is interrupted by a signal -/
  | interrupted (t : Nat)
  /-- `locker.tryLock()` (also `UniqueLocker{ semaphore, TRY_LOCK }`, after `make`) -/
  | tryLock (t : Nat)
  /-- `locker.unlock()` -/
  | unlock (t : Nat)
  /-- the locker is destroyed -/
  | leave (t : Nat)
  deriving DecidableEq, Repr

def Ev.thread : Ev → Nat
  | .enter t | .make t | .makeUnlock t | .lock t | .granted t | .interrupted t | .tryLock t | .unlock t | .leave t => t

/-- What one event does to the thread and the value of the semaphore; `none`: it cannot happen now. -/
def act (value : Nat) (x : TS) : Ev → Option (Nat × TS)
  | .enter _ => match x with
    | .idle => some (value, .waitL)
    | _ => none
  -- Utils.cpp 78-84
  | .make _ => match x with
    | .idle => some (value, .uniq false)
    | _ => none
  -- Utils.cpp 98-102, 200-205: posts without having waited
  | .makeUnlock _ => match x with
    | .idle => some (value + 1, .uniq false)
    | _ => none
  | .lock _ => match x with
    | .uniq b => some (value, .waitU b)
    | _ => none
  -- sem_wait returns 0
  | .granted _ => match value, x with
    | v + 1, .waitL => some (v, .inL)
    | v + 1, .waitU _ => some (v, .uniq true)     -- Utils.cpp 189
    | _, _ => none
  -- sem_wait returns -1: `status = -EINTR` (Semaphore.cpp 62-65) and on
  | .interrupted _ => match x with
    | .waitL => some (value, .inL)
    | .waitU _ => some (value, .uniq true)        -- Utils.cpp 189
    | _ => none
  -- Utils.cpp 193-198
  | .tryLock _ => match x with
    | .uniq true => some (value, .uniq true)
    | .uniq false => match value with
      | v + 1 => some (v, .uniq true)
      | 0 => some (0, .uniq false)
    | _ => none
  -- Utils.cpp 200-205
  | .unlock _ => match x with
    | .uniq _ => some (value + 1, .uniq false)
    | _ => none
  -- Utils.cpp 61-64 (`Locker`), 156-160 (`UniqueLocker`)
  | .leave _ => match x with
    | .inL => some (value + 1, .idle)
    | .uniq true => some (value + 1, .idle)
    | .uniq false => some (value, .idle)
    | _ => none

def step (s : St) (e : Ev) : Option St :=
  match s.thr[e.thread]? with
  | none => none
  | some x => match act s.value x e with
    | none => none
    | some (v, y) => some { value := v, thr := s.thr.set e.thread y }

def run (s : St) : List Ev → Option St
  | [] => some s
  | e :: es => match step s e with
    | none => none
    | some s' => run s' es

/-- The thread has been told that it holds the semaphore: its `Locker` is alive, or its `UniqueLocker` says `locked`. -/
def TS.inside : TS → Bool
  | .inL => true
  | .uniq b => b
  | .waitU b => b
  | _ => false

def St.inside (s : St) : Nat := s.thr.countP TS.inside

/-- What a careful program avoids: no wait is interrupted by a signal, no `UNLOCK` construction, no `unlock` of a `UniqueLocker` that does
not hold, no `lock` of one that does. -/
def careful (x : TS) : Ev → Bool
  | .interrupted _ => false
  | .makeUnlock _ => false
  | .unlock _ => x = .uniq true
  | .lock _ => x = .uniq false
  | _ => true

/-- All events of the run are careful ones. -/
def Careful (s : St) : List Ev → Prop
  | [] => True
  | e :: es => (∀ x, s.thr[e.thread]? = some x → careful x e = true) ∧ ∀ s', step s e = some s' → Careful s' es

/-- Permits that an event makes out of nothing (+1) or loses (-1), judged by what the thread is doing. -/
def made (x : TS) : Ev → Int
  | .interrupted _ => if x.inside then 0 else 1     -- told that it holds, holds nothing
  | .makeUnlock _ => 1
  | .unlock _ => if x.inside then 0 else 1
  | .granted _ => if x.inside then -1 else 0        -- two permits taken, one will be returned
  | _ => 0

/-- The sum over a run. -/
def madeAll (s : St) : List Ev → Int
  | [] => 0
  | e :: es => (match s.thr[e.thread]? with | some x => made x e | none => 0) +
      (match step s e with | some s' => madeAll s' es | none => 0)

end Flame.Conc.SemaLocker
