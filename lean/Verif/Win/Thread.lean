import Verif.Own.Spec

/-!
# `ThreadBase` on Windows: handles of threads

src/Os/Threads/Thread.cpp 13-103 on top of src/Os/Windows/Threads/ThreadFunctions.cpp 15-114.

A thread is numbered by order of its successful creation; its handle appears in the log as `made` when the thread is
started, as `used` when it is waited for until the thread has ended, and as `closed` when the handle is closed.
A thread executes `data->vRun()` on the object it was started from (Thread.cpp 99-103): `host` records that object.

Simplifications: only CreateThread may fail, and then it does not write the identifier; a thread identifier is
neither 0 nor 0xffffffff; what is done to the value of a closed handle, which the system reuses, is recorded as
`closedForeign`; a wait ends (the threads' work is finite).
-/

namespace Flame.WinThread
open Flame.Own

/-- Contents of the `context` member. -/
inductive Ctx where
  /-- `THREAD_CONTEXT_INITIALIZER`: handle 0, identifier 0 (include/FlameIDE/Os/Windows/Constants.hpp 37-39) -/
  | initializer
  /-- handle 0, identifier `OS_THREAD_ID_DETACHED` (ThreadFunctions.cpp 15-21) -/
  | ready
  /-- handle and identifier of thread `r` -/
  | thr (r : Nat)
  /-- never written -/
  | indet
  deriving DecidableEq, Repr

structure Obj where
  ctx : Ctx
  /-- the `status` member -/
  status : Int
  deriving DecidableEq, Repr

structure St where
  vars : Nat → Option Obj
  next : Nat
  log : List Ev
  /-- the object a thread works on -/
  host : Nat → Nat
  /-- threads whose object was destroyed before anybody waited for them to end -/
  dangling : List Nat

def init : St := ⟨fun _ => none, 0, [], fun _ => 0, []⟩

inductive Op where
  | create (i : Nat)
  | moveCtor (i j : Nat)
  | moveAssign (i j : Nat)
  /-- `run()`; CreateThread succeeds -/
  | run (i : Nat)
  /-- `run()`; CreateThread fails with error `e` -/
  | runFail (i : Nat) (e : Nat)
  | join (i : Nat)
  | detach (i : Nat)
  | drop (i : Nat)
  deriving DecidableEq, Repr

/-- ERROR_INVALID_HANDLE -/
def INVALID_HANDLE : Int := 6

/-- `isEqual(context, THREAD_CONTEXT_INITIALIZER)` (Thread.cpp 26, 37, 53). -/
def isInit : Ctx → Res Bool
  | .initializer => .ok true
  | .ready => .ok false
  | .thr _ => .ok false
  | .indet => .ub

/-- `thread::destroy` (ThreadFunctions.cpp 23-40): the log afterwards and the status. -/
def destroy (log : List Ev) : Ctx → Res (List Ev × Int)
  | .ready => .ok (log, 0)
  | .initializer => .ok (log, -1)
  | .thr r => if Live r log then .ok (.closed r :: log, 0) else .ok (.closedForeign :: log, -INVALID_HANDLE)
  | .indet => .ub

/-- `thread::join` (ThreadFunctions.cpp 66-96): waits for the handle in the context; there is none in a context
without a thread. -/
def join (log : List Ev) : Ctx → Res (List Ev × Int)
  | .thr r => if Live r log then .ok (.used r :: log, 0) else .ok (.used r :: log, -INVALID_HANDLE)
  | .ready => .ok (log, -INVALID_HANDLE)
  | .initializer => .ok (log, -INVALID_HANDLE)
  | .indet => .ub

/-- `ThreadBase::detach` (Thread.cpp 69-84): `thread::detach` (ThreadFunctions.cpp 56-64) closes the handle and marks
the context detached; `thread::destroy` of a context so marked does nothing; then the context is reset. -/
def detach (o : Obj) (log : List Ev) : Res (Obj × List Ev) :=
  match destroy log o.ctx with
  | .ok (log, st) =>
    if st = 0 then
      -- the identifier is now `OS_THREAD_ID_DETACHED`: `destroy` returns success at once (lines 26-29)
      .ok (⟨.initializer, 0⟩, log)
    else .ok (⟨o.ctx, st⟩, log)
  | .ub => .ub
  | .loop => .loop

/-- Threads among the first `n` that work on object `i` and have not been waited for. -/
def working (host : Nat → Nat) (n i : Nat) (log : List Ev) : List Nat :=
  (List.range n).filter fun r => decide (host r = i ∧ .used r ∉ log)

/-- `run()` up to `thread::create` (Thread.cpp 51-61); `none`: nothing is created. -/
def prepared (o : Obj) : Res (Option Obj) :=
  match isInit o.ctx with
  | .ok true => .ok (some ⟨.ready, 0⟩)
  | .ok false => if o.status = 0 then .ok (some o) else .ok none
  | .ub => .ub
  | .loop => .loop

def step (s : St) : Op → Res St
  -- Thread.cpp 13-16
  | .create i => match s.vars i with
    | some _ => .ub
    | none => .ok { s with vars := upd s.vars i (some ⟨.initializer, 0⟩) }
  -- Thread.cpp 18-22: the context is not initialised before `operator=` inspects it (Thread.cpp 37)
  | .moveCtor i j => match s.vars i, s.vars j with
    | none, some v => match isInit .indet with
      | .ok _ => .ok { s with vars := upd (upd s.vars i (some v)) j (some ⟨.initializer, 0⟩) }
      | .ub => .ub
      | .loop => .loop
    | _, _ => .ub
  -- Thread.cpp 35-49: the target's handle is closed, nobody waits for its thread
  | .moveAssign i j => match s.vars i, s.vars j with
    | some u, some v => match isInit u.ctx with
      | .ok true => .ok { s with vars := upd (upd s.vars i (some v)) j (some ⟨.initializer, 0⟩) }
      | .ok false => match destroy s.log u.ctx with
        | .ok (log, _) => .ok { s with vars := upd (upd s.vars i (some v)) j (some ⟨.initializer, 0⟩), log := log }
        | .ub => .ub
        | .loop => .loop
      | .ub => .ub
      | .loop => .loop
    | _, _ => .ub
  -- Thread.cpp 51-61, ThreadFunctions.cpp 42-54: the handle in the context is overwritten
  | .run i => match s.vars i with
    | some o => match prepared o with
      | .ok (some _) => .ok { s with vars := upd s.vars i (some ⟨.thr s.next, 0⟩), next := s.next + 1,
                                     log := .made s.next :: s.log, host := upd s.host s.next i }
      | .ok none => .ok s
      | .ub => .ub
      | .loop => .loop
    | none => .ub
  -- the same; the handle is 0 afterwards, the identifier keeps its value
  | .runFail i e => match s.vars i with
    | some o => match prepared o with
      | .ok (some _) => .ok { s with vars := upd s.vars i (some ⟨.ready, -(e : Int)⟩) }
      | .ok none => .ok s
      | .ub => .ub
      | .loop => .loop
    | none => .ub
  -- Thread.cpp 63-67: the context stays
  | .join i => match s.vars i with
    | some o => match join s.log o.ctx with
      | .ok (log, st) => .ok { s with vars := upd s.vars i (some ⟨o.ctx, st⟩), log := log }
      | .ub => .ub
      | .loop => .loop
    | none => .ub
  -- Thread.cpp 69-84
  | .detach i => match s.vars i with
    | some o => match detach o s.log with
      | .ok (o, log) => .ok { s with vars := upd s.vars i (some o), log := log }
      | .ub => .ub
      | .loop => .loop
    | none => .ub
  -- Thread.cpp 24-33
  | .drop i => match s.vars i with
    | some o => match isInit o.ctx with
      | .ok true => .ok { s with vars := upd s.vars i none, dangling := working s.host s.next i s.log ++ s.dangling }
      | .ok false => match join s.log o.ctx with
        | .ok (log, _) => match destroy log o.ctx with
          | .ok (log, _) => .ok { s with vars := upd s.vars i none, log := log,
                                         dangling := working s.host s.next i log ++ s.dangling }
          | .ub => .ub
          | .loop => .loop
        | .ub => .ub
        | .loop => .loop
      | .ub => .ub
      | .loop => .loop
    | none => .ub

def ctxThr : Ctx → Option Nat
  | .thr r => some r
  | _ => none

/-- The handle a variable is responsible for. -/
def owner (s : St) (i : Nat) : Option Nat := (s.vars i).bind fun o => ctxThr o.ctx

/-- Any call on declared objects. -/
def pre (s : St) : Op → Prop
  | .create i => s.vars i = none
  | .moveCtor i j => s.vars i = none ∧ s.vars j ≠ none
  | .moveAssign i j => s.vars i ≠ none ∧ s.vars j ≠ none
  | .run i | .runFail i _ | .join i | .detach i | .drop i => s.vars i ≠ none

instance (s : St) (o : Op) : Decidable (pre s o) := by cases o <;> unfold pre <;> infer_instance

/-- Anything but move construction and running an object that already has a thread. -/
def careful (s : St) (o : Op) : Prop :=
  pre s o ∧ match o with
    | .moveCtor _ _ => False
    | .run i | .runFail i _ => owner s i = none
    | _ => True

instance (s : St) (o : Op) : Decidable (careful s o) := by
  unfold careful
  cases o <;> infer_instance

/-- In addition, threads are not detached and objects with a thread are neither moved nor assigned to. -/
def stay (s : St) (o : Op) : Prop :=
  careful s o ∧ match o with
    | .moveAssign i j => owner s i = none ∧ owner s j = none
    | .detach i => owner s i = none
    | _ => True

instance (s : St) (o : Op) : Decidable (stay s o) := by
  unfold stay
  cases o <;> infer_instance

end Flame.WinThread
