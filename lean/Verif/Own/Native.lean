import Verif.Own.Spec

/-!
# Native synchronisation objects and shared libraries

* `Mutex` (src/Os/Threads/Mutex.cpp), `Spin` (src/Os/Threads/Spin.cpp), `Semaphore` (src/Os/Threads/Semaphore.cpp);
* `Library` (src/Os/Library.cpp).

A native object is numbered by order of its successful initialisation.  A `context` member either is
indeterminate (never written), equals the `…_CONTEXT_INITIALIZER` constant, or is the context of a native
object.  The code decides by comparing bytes with the initializer; `looks r` says whether the bytes of the
freshly initialised native object `r` happen to equal the initializer (the C library decides this: for glibc a
default `pthread_mutex_t` does, a semaphore with value 0 does).

Simplification: a context is not modified by locking, and the member bytes may be copied (as the code does).
-/

namespace Flame.Own.Native

/-- Contents of the `context` member. -/
inductive Ctx where
  | indet
  | initializer
  | obj (r : Nat)
  deriving DecidableEq, Repr

inductive Cls where
  | mutex
  | spin
  | semaphore
  deriving DecidableEq, Repr

structure St where
  vars : Nat → Option Ctx
  next : Nat
  log : List Ev

def init : St := ⟨fun _ => none, 0, []⟩

inductive Op where
  /-- default constructor; native initialisation succeeds -/
  | create (i : Nat)
  | moveCtor (i j : Nat)
  | moveAssign (i j : Nat)
  | drop (i : Nat)
  /-- `lock`, `unlock`, `post`, … -/
  | use (i : Nat)
  deriving DecidableEq, Repr

/-- `isEqual(context, INITIALIZER)`: indeterminate bytes must not be read. -/
def isInit (looks : Nat → Bool) : Ctx → Res Bool
  | .indet => .ub
  | .initializer => .ok true
  | .obj r => .ok (looks r)

/-- Native destruction (`pthread_mutex_destroy`, `pthread_spin_destroy`, `sem_destroy`) of the context: of a
native object that exists; anything else is undefined for POSIX — the request to destroy the initializer is
recorded as `closedNothing`. -/
def destroy (log : List Ev) : Ctx → Res (List Ev)
  | .indet => .ub
  | .initializer => .ok (.closedNothing :: log)
  | .obj r => if Live r log then .ok (.closed r :: log) else .ub

/-- Move assignment, given the current context of the target: Mutex.cpp 31-45 and Spin.cpp 32-47 destroy the
target's context unless it equals the initializer; Semaphore.cpp 36-50 destroys it *if* it equals the
initializer.  Result: the log. -/
def assignLog (looks : Nat → Bool) (c : Cls) (log : List Ev) (ctx : Ctx) : Res (List Ev) :=
  match isInit looks ctx with
  | .ok b => match c with
    | .mutex | .spin => if b then .ok log else destroy log ctx
    | .semaphore => if b then destroy log ctx else .ok log
  | .ub => .ub
  | .loop => .loop

/-- Destructor: Mutex.cpp 23-29, Spin.cpp 23-30, Semaphore.cpp 27-34. -/
def dropLog (looks : Nat → Bool) (log : List Ev) (ctx : Ctx) : Res (List Ev) :=
  match isInit looks ctx with
  | .ok b => if b then .ok log else destroy log ctx
  | .ub => .ub
  | .loop => .loop

/-- Context a move constructor starts with: `Mutex` and `Spin` have no initializer for the member
(include/FlameIDE/Os/Threads/Mutex.hpp 37, Spin.hpp 38; Mutex.cpp 18-21, Spin.cpp 18-21); `Semaphore` sets it to the initializer
(Semaphore.cpp 16-20). -/
def startCtx : Cls → Ctx
  | .mutex | .spin => .indet
  | .semaphore => .initializer

def step (looks : Nat → Bool) (c : Cls) (s : St) : Op → Res St
  -- Mutex.cpp 13-16, Spin.cpp 13-16, Semaphore.cpp 13-14, 22-25
  | .create i => match s.vars i with
    | some _ => .ub
    | none => .ok { vars := upd s.vars i (some (.obj s.next)), next := s.next + 1, log := .made s.next :: s.log }
  -- `operator=(move(source))` on the new object
  | .moveCtor i j => match s.vars i, s.vars j with
    | none, some v => match assignLog looks c s.log (startCtx c) with
      | .ok log => .ok { s with vars := upd (upd s.vars i (some v)) j (some .initializer), log := log }
      | .ub => .ub
      | .loop => .loop
    | _, _ => .ub
  | .moveAssign i j => match s.vars i, s.vars j with
    | some u, some v => match assignLog looks c s.log u with
      | .ok log => .ok { s with vars := upd (upd s.vars i (some v)) j (some .initializer), log := log }
      | .ub => .ub
      | .loop => .loop
    | _, _ => .ub
  | .drop i => match s.vars i with
    | some v => match dropLog looks s.log v with
      | .ok log => .ok { s with vars := upd s.vars i none, log := log }
      | .ub => .ub
      | .loop => .loop
    | none => .ub
  | .use i => match s.vars i with
    | some (.obj r) => if Live r s.log then .ok { s with log := .used r :: s.log } else .ub
    | _ => .ub

def ctxObj : Ctx → Option Nat
  | .obj r => some r
  | _ => none

/-- The native object a variable is responsible for. -/
def owner (s : St) (i : Nat) : Option Nat := (s.vars i).bind ctxObj

/-- Caller obligations: variables are declared before use and only once, moved-from objects are not locked. -/
def pre (s : St) : Op → Prop
  | .create i => s.vars i = none
  | .moveCtor i j => s.vars i = none ∧ s.vars j ≠ none
  | .moveAssign i j => s.vars i ≠ none ∧ s.vars j ≠ none
  | .drop i => s.vars i ≠ none
  | .use i => owner s i ≠ none

instance (s : St) (o : Op) : Decidable (pre s o) := by cases o <;> unfold pre <;> infer_instance

/-- The executions in which the class behaves: for `Mutex` and `Spin` no move construction; for `Semaphore` no
move onto a variable that holds a native semaphore. -/
def careful (c : Cls) (s : St) (o : Op) : Prop :=
  pre s o ∧ match c, o with
    | .mutex, .moveCtor _ _ | .spin, .moveCtor _ _ => False
    | .semaphore, .moveAssign i _ => owner s i = none
    | _, _ => True

instance (c : Cls) (s : St) (o : Op) : Decidable (careful c s o) := by
  unfold careful
  cases c <;> cases o <;> infer_instance

end Flame.Own.Native

/-! ## `Library` -/

namespace Flame.Own.Lib

/-- The `handle` member: null, or a heap cell holding the invalid handle or an opened library.  Cells are never
shared, so the cell's contents stand for the cell. -/
inductive Handle where
  | null
  | cell (content : Option Nat)
  deriving DecidableEq, Repr

structure St where
  vars : Nat → Option Handle
  next : Nat
  log : List Ev
  /-- heap cells allocated less those freed -/
  cells : Int

def init : St := ⟨fun _ => none, 0, [], 0⟩

inductive Op where
  /-- `Library()` -/
  | create (i : Nat)
  /-- `Library(name, directory)`; the flag says whether the library is found -/
  | load (i : Nat) (found : Bool)
  | moveCtor (i j : Nat)
  | moveAssign (i j : Nat)
  /-- `operator bool`, `find` -/
  | use (i : Nat)
  | drop (i : Nat)
  deriving DecidableEq, Repr

/-- Library.cpp 138-141 `handleRef`: dereferences; null is undefined. -/
def handleRef : Handle → Res (Option Nat)
  | .null => .ub
  | .cell c => .ok c

def step (s : St) : Op → Res St
  -- 27-31 (allocation of the cell is assumed to succeed)
  | .create i => match s.vars i with
    | some _ => .ub
    | none => .ok { s with vars := upd s.vars i (some (.cell none)), cells := s.cells + 1 }
  -- 38-42; `library::open` (src/Os/Posix/LibraryFunctions.cpp 10-15) gives a null address on failure
  | .load i found => match s.vars i with
    | some _ => .ub
    | none =>
      if found then .ok { vars := upd s.vars i (some (.cell (some s.next))), next := s.next + 1,
                          log := .made s.next :: s.log, cells := s.cells + 1 }
      else .ok { s with vars := upd s.vars i (some (.cell none)), cells := s.cells + 1 }
  -- 33-36
  | .moveCtor i j => match s.vars i, s.vars j with
    | none, some h => .ok { s with vars := upd (upd s.vars i (some h)) j (some .null) }
    | _, _ => .ub
  -- 54-59
  | .moveAssign i j => match s.vars i, s.vars j with
    | some _, some h => .ok { s with vars := upd (upd s.vars i (some h)) j (some .null) }
    | _, _ => .ub
  -- 61-71
  | .use i => match s.vars i with
    | some h => match handleRef h with
      | .ok (some r) => if Live r s.log then .ok { s with log := .used r :: s.log } else .ub
      | .ok none => .ok s
      | .ub => .ub
      | .loop => .loop
    | none => .ub
  -- 44-52: `if (*this)` (61-64) close and free the cell
  | .drop i => match s.vars i with
    | some h => match handleRef h with
      | .ok (some r) =>
        if Live r s.log then .ok { s with vars := upd s.vars i none, log := .closed r :: s.log, cells := s.cells - 1 }
        else .ub
      | .ok none => .ok { s with vars := upd s.vars i none }
      | .ub => .ub
      | .loop => .loop
    | none => .ub

def handleLib : Handle → Option Nat
  | .cell c => c
  | .null => none

/-- The opened library a variable is responsible for. -/
def owner (s : St) (i : Nat) : Option Nat := (s.vars i).bind handleLib

def pre (s : St) : Op → Prop
  | .create i | .load i _ => s.vars i = none
  | .moveCtor i j => s.vars i = none ∧ s.vars j ≠ none
  | .moveAssign i j => s.vars i ≠ none ∧ s.vars j ≠ none
  | .use i => s.vars i ≠ none
  | .drop i => s.vars i ≠ none

instance (s : St) (o : Op) : Decidable (pre s o) := by cases o <;> unfold pre <;> infer_instance

/-- The executions in which the class behaves: moved-from objects are neither used nor destroyed, and no
variable is assigned over while it holds a library. -/
def careful (s : St) (o : Op) : Prop :=
  pre s o ∧ match o with
    | .use i | .drop i => s.vars i ≠ some .null
    | .moveAssign i _ => owner s i = none
    | _ => True

instance (s : St) (o : Op) : Decidable (careful s o) := by
  unfold careful
  cases o <;> infer_instance

end Flame.Own.Lib
