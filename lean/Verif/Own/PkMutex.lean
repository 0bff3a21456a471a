import Verif.Own.Spec

/-!
# PKCS#11 mutex (src/Crypto/SoftPkcs11/Mutex.cpp, Mutex.hpp)

A mutex context is created and destroyed by callbacks the application supplies.  Contexts are numbered by order
of creation.  `Cb` is a callback pointer: null, one of the stubs of the default constructor, or the
application's.  The application's callbacks do what PKCS#11 says; calls are recorded in `calls` (newest first).
-/

namespace Flame.Own.Pk

inductive Cb where
  | null
  | stub
  | user
  deriving DecidableEq, Repr

/-- A call of an application callback, with the context it received. -/
inductive Call where
  | create
  | destroy (ctx : Option Nat)
  | lock (ctx : Option Nat)
  | unlock (ctx : Option Nat)
  deriving DecidableEq, Repr

/-- `getLastStatus()` as far as it matters. -/
inductive Status where
  | ok
  | argumentsBad
  | failed
  deriving DecidableEq, Repr

/-- Members (Mutex.hpp 43-51). -/
structure Var where
  destroyMutex : Cb
  lockMutex : Cb
  unlockMutex : Cb
  context : Option Nat
  lastStatus : Status
  deriving DecidableEq, Repr

structure St where
  vars : Nat → Option Var
  next : Nat
  log : List Ev
  calls : List Call

def init : St := ⟨fun _ => none, 0, [], []⟩

inductive Op where
  /-- `Mutex()` -/
  | default (i : Nat)
  /-- `Mutex(create, destroy, lock, unlock)`; `ok`: the create callback succeeds -/
  | construct (i : Nat) (createMutex destroyMutex lockMutex unlockMutex : Cb) (ok : Bool)
  | moveCtor (i j : Nat)
  | moveAssign (i j : Nat)
  | lock (i : Nat)
  | unlock (i : Nat)
  | destroy (i : Nat)
  | drop (i : Nat)
  deriving DecidableEq, Repr

/-- Mutex.cpp 78-82 `destroy`: `destroyMutex(context)`, then the context is null.  A null callback is
undefined; a context that does not exist must not be passed. -/
def destroyVar (s : St) (v : Var) : Res (St × Var) :=
  match v.destroyMutex with
  | .null => .ub
  | .stub => .ok (s, { v with context := none, lastStatus := .ok })
  | .user => match v.context with
    | none => .ok ({ s with log := .closedNothing :: s.log, calls := .destroy none :: s.calls },
        { v with lastStatus := .failed })
    | some r =>
      if Live r s.log then
        .ok ({ s with log := .closed r :: s.log, calls := .destroy (some r) :: s.calls },
          { v with context := none, lastStatus := .ok })
      else .ub

def step (s : St) : Op → Res St
  -- 20-22
  | .default i => match s.vars i with
    | some _ => .ub
    | none => .ok { s with vars := upd s.vars i (some ⟨.stub, .stub, .stub, none, .ok⟩) }
  -- 34-48
  | .construct i c d l u ok => match s.vars i with
    | some _ => .ub
    | none =>
      if c = .null ∨ d = .null ∨ l = .null ∨ u = .null then
        .ok { s with vars := upd s.vars i (some ⟨d, l, u, none, .argumentsBad⟩) }
      else match c with
        | .user =>
          if ok then .ok { vars := upd s.vars i (some ⟨d, l, u, some s.next, .ok⟩), next := s.next + 1,
                           log := .made s.next :: s.log, calls := .create :: s.calls }
          else .ok { s with vars := upd s.vars i (some ⟨d, l, u, none, .failed⟩), calls := .create :: s.calls }
        | _ => .ok { s with vars := upd s.vars i (some ⟨d, l, u, none, .ok⟩) }
  -- 24-32: all members copied, the source's context becomes null
  | .moveCtor i j => match s.vars i, s.vars j with
    | none, some v => .ok { s with vars := upd (upd s.vars i (some v)) j (some { v with context := none }) }
    | _, _ => .ub
  -- 55-66
  | .moveAssign i j => match s.vars i, s.vars j with
    | some _, some v => .ok { s with vars := upd (upd s.vars i (some v)) j (some { v with context := none }) }
    | _, _ => .ub
  -- 68-71
  | .lock i => match s.vars i with
    | some v => match v.lockMutex with
      | .null => .ub
      | .stub => .ok s
      | .user => .ok { s with calls := .lock v.context :: s.calls }
    | none => .ub
  -- 73-76: calls `lockMutex`
  | .unlock i => match s.vars i with
    | some v => match v.lockMutex with
      | .null => .ub
      | .stub => .ok s
      | .user => .ok { s with calls := .lock v.context :: s.calls }
    | none => .ub
  -- 78-82
  | .destroy i => match s.vars i with
    | some v => match destroyVar s v with
      | .ok r => .ok { r.1 with vars := upd s.vars i (some r.2) }
      | .ub => .ub
      | .loop => .loop
    | none => .ub
  -- 50-53
  | .drop i => match s.vars i with
    | some v => match destroyVar s v with
      | .ok r => .ok { r.1 with vars := upd s.vars i none }
      | .ub => .ub
      | .loop => .loop
    | none => .ub

/-- The context a variable is responsible for. -/
def owner (s : St) (i : Nat) : Option Nat := (s.vars i).bind Var.context

/-- Caller obligations. -/
def pre (s : St) : Op → Prop
  | .default i | .construct i _ _ _ _ _ => s.vars i = none
  | .moveCtor i j => s.vars i = none ∧ s.vars j ≠ none
  | .moveAssign i j => s.vars i ≠ none ∧ s.vars j ≠ none
  | .lock i | .unlock i | .destroy i | .drop i => s.vars i ≠ none

instance (s : St) (o : Op) : Decidable (pre s o) := by cases o <;> unfold pre <;> infer_instance

/-- The executions in which contexts are handled correctly: all four callbacks are the application's, no
variable is assigned over while it has a context. -/
def careful (s : St) (o : Op) : Prop :=
  pre s o ∧ match o with
    | .construct _ c d l u _ => c = .user ∧ d = .user ∧ l = .user ∧ u = .user
    | .moveAssign i j => owner s i = none ∧ i ≠ j
    | _ => True

instance (s : St) (o : Op) : Decidable (careful s o) := by
  unfold careful
  cases o <;> infer_instance

end Flame.Own.Pk
