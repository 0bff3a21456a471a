import Verif.Conc.CondVar

/-!
# The rest of `ConditionVariable`: `wait(functor)`, `unwait`, `isWait` and the destructor

include/FlameIDE/Os/Threads/ConditionVariable.hpp 81-92 (`wait(functor)`), src/Os/Threads/ConditionVarable.cpp 8-11 (the destructor), 34-42
(`unwait`, `isWait`), src/Os/Threads/Utils.cpp 156-160 (`~UniqueLocker`, the last thing the destructor does).  The steps of `wait`,
`notify` and `tryWait` are those of `Conc/CondVar`.

Simplifications: as in `Conc/CondVar`; all functors look at the same condition, which the program changes as it likes; a thread that is inside the
`lock` function of the lock (which outlives the condition variable) does not touch the condition variable until that returns.
-/

namespace Flame.Conc.CondLife
open Flame.Own (upd upd_self upd_ne)
open Flame.Conc.CondVar (PC Call next)

/-- Where a thread is in `wait(functor)`. -/
inductive Mode where
  /-- not in it -/
  | plain
  /-- 90: in `wait()` -/
  | looping
  /-- 91: `wait()` has returned -/
  | check
  deriving DecidableEq

structure St where
  b : CondVar.St
  cond : Bool
  mode : Nat → Mode
  /-- the thread that runs the destructor -/
  dying : Option Nat
  /-- the destructor has returned -/
  dead : Bool
  /-- history: results of the functor -/
  evals : List (Nat × Bool)
  /-- history: threads whose `wait(functor)` returned -/
  returned : List Nat

def start (cond : Bool) : St := ⟨CondVar.init, cond, fun _ => .plain, none, false, [], []⟩

inductive Op where
  | call (t : Nat) (c : Call)
  | waitFor (t : Nat)
  | unwait (t : Nat)
  | destroy (t : Nat)
  /-- thread `t` takes its next step in `wait`, `notify` or `tryWait` -/
  | adv (t : Nat)
  /-- thread `t` evaluates the functor -/
  | eval (t : Nat)
  /-- `notify` (line 10) has returned in the destructor; `~UniqueLocker` -/
  | finish (t : Nat)
  /-- the program changes the condition -/
  | set (v : Bool)
  deriving DecidableEq

/-- ConditionVarable.cpp 39-42 -/
def isWait (s : St) : Bool := s.b.cnt != 0

/-- The next step accesses a member of the condition variable. -/
def touches : PC → Bool
  | .idle | .w3 => false
  | _ => true

def step (s : St) : Op → Res St
  | .call t c => match next s.b t (some c) with
    | some b => .ok { s with b := b }
    | none => .ok s
  | .waitFor t => match next s.b t (some .wait) with
    | some b => .ok { s with b := b, mode := upd s.mode t .looping }
    | none => .ok s
  -- 34-37
  | .unwait _ => .ok { s with b := { s.b with cnt := (s.b.cnt + 255) % 256 } }
  -- 8-10
  | .destroy t => match next s.b t (some .notify) with
    | some b => .ok { s with b := b, dying := some t }
    | none => .ok s
  | .adv t =>
    if s.dead && touches (s.b.thr t) then .ub
    else match next s.b t none with
      | some b => .ok { s with b := b, mode := if s.mode t = .looping ∧ b.thr t = .idle then upd s.mode t .check else s.mode }
      | none => .ok s
  | .eval t =>
    if s.cond then .ok { s with evals := s.evals ++ [(t, true)], mode := upd s.mode t .plain, returned := s.returned ++ [t] }
    else if s.dead then .ub
    else match next s.b t (some .wait) with
      | some b => .ok { s with b := b, evals := s.evals ++ [(t, false)], mode := upd s.mode t .looping }
      | none => .ok s
  -- Utils.cpp 156-160
  | .finish _ =>
    if s.b.flag then .ok { s with b := { s.b with lk := false, flag := false }, dead := true }
    else .ok { s with dead := true }
  | .set v => .ok { s with cond := v }

/-- A thread makes one call at a time; the program makes no call once the destructor has begun. -/
def pre (s : St) : Op → Prop
  | .call t _ | .waitFor t | .unwait t | .destroy t => s.b.thr t = .idle ∧ s.mode t = .plain ∧ s.dying = none
  | .adv t => s.b.thr t ≠ .idle
  | .eval t => s.b.thr t = .idle ∧ s.mode t = .check
  | .finish t => s.dying = some t ∧ s.b.thr t = .idle ∧ s.dead = false
  | .set _ => True

instance (s : St) (o : Op) : Decidable (pre s o) := by
  cases o <;> unfold pre <;> infer_instance

/-- Threads `0 … n-1` use `wait`, `wait(functor)` and `notify` only. -/
def basic (n : Nat) (s : St) (o : Op) : Prop :=
  pre s o ∧ match o with
    | .call t c => t < n ∧ c ≠ .tryWait
    | .waitFor t => t < n
    | .unwait _ | .destroy _ | .finish _ => False
    | _ => True

end Flame.Conc.CondLife
