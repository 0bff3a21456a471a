import Verif.Own.Spec

/-!
# `ThreadBase`: starting, joining, detaching and moving threads

src/Os/Threads/Thread.cpp 13-103 on top of src/Os/Posix/Threads/ThreadFunctions.cpp 21-76.

A native thread is numbered by order of its successful creation; it appears in the log as `made` when it is
started and as `closed` when it is joined or detached (either releases it, and POSIX leaves a second join undefined).
A running thread executes `data->vRun()` on the object it was started from (Thread.cpp 99-103): `host` records
that object.

Simplifications: the native calls other than `pthread_create` succeed; an initialised attribute object differs from
the zero bytes of `THREAD_CONTEXT_INITIALIZER` (glibc stores the guard size in it), and so does a thread identifier;
the memory of attribute objects is not tracked.
-/

namespace Flame.Own.Thread

/-- Contents of the `context` member. -/
inductive Ctx where
  /-- `THREAD_CONTEXT_INITIALIZER` -/
  | initializer
  /-- attributes initialised, no thread: the identifier is undefined (`pthread_create` failed) -/
  | ready
  /-- attributes initialised, identifier of thread `r` -/
  | thr (r : Nat)
  /-- never written -/
  | indet
  deriving DecidableEq, Repr

structure Obj where
  ctx : Ctx
  /-- the `status` member -/
  status : Int
  deriving DecidableEq, Repr

structure St where
  vars : Nat → Option Obj
  next : Nat
  log : List Ev
  /-- the object a thread works on -/
  host : Nat → Nat
  /-- threads whose object was destroyed before they were joined -/
  dangling : List Nat

def init : St := ⟨fun _ => none, 0, [], fun _ => 0, []⟩

inductive Op where
  | create (i : Nat)
  | moveCtor (i j : Nat)
  | moveAssign (i j : Nat)
  /-- `run()`; `pthread_create` succeeds -/
  | run (i : Nat)
  /-- `run()`; `pthread_create` fails while `errno` is `e` (it does not set `errno`) -/
  | runFail (i : Nat) (e : Int)
  | join (i : Nat)
  | detach (i : Nat)
  | drop (i : Nat)
  deriving DecidableEq, Repr

/-- The object an operation is called on, and the one it is moved from. -/
def Op.touches : Op → Nat → Prop
  | .create i, k | .run i, k | .runFail i _, k | .join i, k | .detach i, k | .drop i, k => k = i
  | .moveCtor i j, k | .moveAssign i j, k => k = i ∨ k = j

/-- `isEqual(context, THREAD_CONTEXT_INITIALIZER)` (Thread.cpp 26, 37, 53): indeterminate bytes must not be read. -/
def isInit : Ctx → Res Bool
  | .initializer => .ok true
  | .ready => .ok false
  | .thr _ => .ok false
  | .indet => .ub

/-- `pthread_join` of the identifier in the context (ThreadFunctions.cpp 62-68; Thread.cpp 63-67): defined for a
thread that was neither joined nor detached. -/
def joinLog (log : List Ev) : Ctx → Res (List Ev)
  | .thr r => if Live r log then .ok (.closed r :: log) else .ub
  | _ => .ub

/-- `pthread_attr_destroy` of the attributes in the context (ThreadFunctions.cpp 28-33): defined for initialised
attributes. -/
def attrDestroy : Ctx → Res Unit
  | .ready => .ok ()
  | .thr _ => .ok ()
  | .initializer => .ub
  | .indet => .ub

/-- `ThreadBase::detach` (Thread.cpp 69-84) on a context: `thread::detach` (ThreadFunctions.cpp 46-60) detaches, and, the
attributes being different from the initializer, destroys them and resets the context; then `detach` destroys the
attributes of the (reset) context. -/
def detachLog (log : List Ev) : Ctx → Res (List Ev)
  | .thr r => if Live r log then
      match attrDestroy (.thr r) with
      | .ok _ => match attrDestroy .initializer with
        | .ok _ => .ok (.closed r :: log)
        | .ub => .ub
        | .loop => .loop
      | .ub => .ub
      | .loop => .loop
    else .ub
  | _ => .ub

/-- Threads among the first `n` that work on object `i` and were not joined. -/
def working (host : Nat → Nat) (n i : Nat) (log : List Ev) : List Nat :=
  (List.range n).filter fun r => decide (host r = i ∧ Live r log)

/-- `run()` after the identifier and attributes are prepared (Thread.cpp 51-61): `thread::init` when the context is
the initializer, which sets the status to success; then `thread::create` when the status is success.
`none`: nothing is created. -/
def prepared (o : Obj) : Res (Option Obj) :=
  match isInit o.ctx with
  | .ok true => .ok (some ⟨.ready, 0⟩)
  | .ok false => if o.status = 0 then .ok (some o) else .ok none
  | .ub => .ub
  | .loop => .loop

def step (s : St) : Op → Res St
  -- Thread.cpp 13-16
  | .create i => match s.vars i with
    | some _ => .ub
    | none => .ok { s with vars := upd s.vars i (some ⟨.initializer, 0⟩) }
  -- Thread.cpp 18-22: the context is not initialised before `operator=` inspects it (Thread.cpp 37)
  | .moveCtor i j => match s.vars i, s.vars j with
    | none, some v => match isInit .indet with
      | .ok _ => .ok { s with vars := upd (upd s.vars i (some v)) j (some ⟨.initializer, 0⟩) }
      | .ub => .ub
      | .loop => .loop
    | _, _ => .ub
  -- Thread.cpp 35-49: only the attributes are destroyed
  | .moveAssign i j => match s.vars i, s.vars j with
    | some u, some v => match isInit u.ctx with
      | .ok _ => .ok { s with vars := upd (upd s.vars i (some v)) j (some ⟨.initializer, 0⟩) }
      | .ub => .ub
      | .loop => .loop
    | _, _ => .ub
  -- Thread.cpp 51-61, ThreadFunctions.cpp 35-44
  | .run i => match s.vars i with
    | some o => match prepared o with
      | .ok (some _) => .ok { s with vars := upd s.vars i (some ⟨.thr s.next, 0⟩), next := s.next + 1,
                                     log := .made s.next :: s.log, host := upd s.host s.next i }
      | .ok none => .ok s
      | .ub => .ub
      | .loop => .loop
    | none => .ub
  -- the same; after a failed `pthread_create` the identifier is undefined, the status is `-errno`
  | .runFail i e => match s.vars i with
    | some o => match prepared o with
      | .ok (some _) => .ok { s with vars := upd s.vars i (some ⟨.ready, -e⟩) }
      | .ok none => .ok s
      | .ub => .ub
      | .loop => .loop
    | none => .ub
  -- Thread.cpp 63-67: the context stays
  | .join i => match s.vars i with
    | some o => match joinLog s.log o.ctx with
      | .ok log => .ok { s with vars := upd s.vars i (some ⟨o.ctx, 0⟩), log := log }
      | .ub => .ub
      | .loop => .loop
    | none => .ub
  -- Thread.cpp 69-84
  | .detach i => match s.vars i with
    | some o => match detachLog s.log o.ctx with
      | .ok log => .ok { s with vars := upd s.vars i (some ⟨.initializer, 0⟩), log := log }
      | .ub => .ub
      | .loop => .loop
    | none => .ub
  -- Thread.cpp 24-33
  | .drop i => match s.vars i with
    | some o => match isInit o.ctx with
      | .ok true => .ok { s with vars := upd s.vars i none, dangling := working s.host s.next i s.log ++ s.dangling }
      | .ok false => match joinLog s.log o.ctx with
        | .ok log => .ok { s with vars := upd s.vars i none, log := log,
                                  dangling := working s.host s.next i log ++ s.dangling }
        | .ub => .ub
        | .loop => .loop
      | .ub => .ub
      | .loop => .loop
    | none => .ub

def ctxThr : Ctx → Option Nat
  | .thr r => some r
  | _ => none

/-- The thread a variable is responsible for. -/
def owner (s : St) (i : Nat) : Option Nat := (s.vars i).bind fun o => ctxThr o.ctx

/-- Any call on declared objects. -/
def pre (s : St) : Op → Prop
  | .create i => s.vars i = none
  | .moveCtor i j => s.vars i = none ∧ s.vars j ≠ none
  | .moveAssign i j => s.vars i ≠ none ∧ s.vars j ≠ none
  | .run i | .runFail i _ | .join i | .detach i | .drop i => s.vars i ≠ none

instance (s : St) (o : Op) : Decidable (pre s o) := by cases o <;> unfold pre <;> infer_instance

/-- The calls that keep the bookkeeping right: an idle object is run (successfully), never joined or detached by
hand, and moved only onto another, idle, object. -/
def careful (s : St) (o : Op) : Prop :=
  pre s o ∧ match o with
    | .moveCtor _ _ | .runFail _ _ | .join _ | .detach _ => False
    | .run i => owner s i = none
    | .moveAssign i j => owner s i = none ∧ i ≠ j
    | _ => True

instance (s : St) (o : Op) : Decidable (careful s o) := by
  unfold careful
  cases o <;> infer_instance

/-- In addition, objects with a thread are not moved. -/
def stay (s : St) (o : Op) : Prop :=
  careful s o ∧ match o with
    | .moveAssign _ j => owner s j = none
    | _ => True

instance (s : St) (o : Op) : Decidable (stay s o) := by
  unfold stay
  cases o <;> infer_instance

end Flame.Own.Thread
