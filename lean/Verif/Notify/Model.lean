import Verif.Own.Spec

/-!
# The notificator of the event catcher

src/Os/Async/Network/EventCatcherBase.cpp 9-30, Registrar.cpp (in the same directory) 180-188,
include/FlameIDE/Common/ReferenceWrapper.hpp 74-104.

`setNotificator` and `unsetNotificator` are called by the program; `notify` is called by whatever thread takes the event:
the one the POSIX signal is delivered to (src/Os/Posix/Async/Network/EventCatcher.cpp 114), the dispatch thread on Windows
(src/Os/Windows/Async/Network/MessageDispatchThread.cpp 186).  Nothing is locked and the pointer is not atomic.

Simplifications: accesses of the pointer are sequentially consistent (a data race on it is undefined behaviour in the
language already); notificators are numbered and never placed at the address of an earlier one.
-/

namespace Flame.Notify
open Flame.Own (upd upd_self upd_ne)

/-- What can be observed, newest first. -/
inductive Ev where
  /-- `setNotificator(n)` -/
  | set (n : Nat)
  | unset
  /-- thread `t` enters `operator()` of notificator `n` -/
  | enter (t n : Nat)
  /-- and returns from it -/
  | leave (t n : Nat)
  /-- notificator `n` is destroyed -/
  | gone (n : Nat)
  deriving DecidableEq, Repr

/-- Where a thread is within `notify` (EventCatcherBase.cpp 26-30). -/
inductive Pc where
  | idle
  /-- `notificationObject` was true -/
  | tested
  /-- `notificationObject.get()` was evaluated -/
  | got (n : Nat)
  /-- in the body of `operator()` -/
  | inside (n : Nat)
  deriving DecidableEq, Repr

structure St where
  /-- `notificationObject`: the pointer in the reference wrapper -/
  slot : Option Nat
  /-- notificators that exist -/
  alive : Nat → Bool
  pc : Nat → Pc
  log : List Ev

/-- EventCatcherBase.hpp 70 -/
def init : St := ⟨none, fun _ => false, fun _ => .idle, []⟩

/-- ReferenceWrapper.hpp 94-98: `operator bool` -/
def test : Option Nat → Bool
  | some _ => true
  | none => false

/-- ReferenceWrapper.hpp 93-98: `get()` dereferences the pointer -/
def get : Option Nat → Res Nat
  | some n => .ok n
  | none => .ub

inductive Op where
  /-- a notificator comes into existence -/
  | make (n : Nat)
  | set (n : Nat)
  | unset
  /-- a notificator is destroyed -/
  | destroy (n : Nat)
  /-- the next access of a thread within `notify`; a thread that is outside begins one -/
  | run (t : Nat)
  deriving DecidableEq, Repr

def step (s : St) : Op → Res St
  | .make n => .ok { s with alive := upd s.alive n true }
  -- EventCatcherBase.cpp 14-17
  | .set n => .ok { s with slot := some n, log := .set n :: s.log }
  -- EventCatcherBase.cpp 19-22
  | .unset => .ok { s with slot := none, log := .unset :: s.log }
  | .destroy n => if s.alive n then .ok { s with alive := upd s.alive n false, log := .gone n :: s.log } else .ub
  | .run t => match s.pc t with
    -- EventCatcherBase.cpp 28
    | .idle => if test s.slot then .ok { s with pc := upd s.pc t .tested } else .ok s
    -- EventCatcherBase.cpp 29: `notificationObject.get()`
    | .tested => match get s.slot with
      | .ok n => .ok { s with pc := upd s.pc t (.got n) }
      | .ub => .ub
      | .loop => .loop
    -- EventCatcherBase.cpp 29: the virtual call
    | .got n => if s.alive n then .ok { s with pc := upd s.pc t (.inside n), log := .enter t n :: s.log } else .ub
    -- the notificator's own code, which uses the object, and the return
    | .inside n => if s.alive n then .ok { s with pc := upd s.pc t .idle, log := .leave t n :: s.log } else .ub

/-- What the API asks for: notificators are made once, set while they exist, and not destroyed while they are set. -/
def asked (s : St) : Op → Prop
  | .make n => s.alive n = false ∧ .gone n ∉ s.log
  | .set n => s.alive n = true
  | .unset => True
  | .destroy n => s.alive n = true ∧ s.slot ≠ some n
  | .run _ => True

instance (s : St) (o : Op) : Decidable (asked s o) := by cases o <;> unfold asked <;> infer_instance

/-- No thread among the first `k` is within `notify`. -/
def Quiet (k : Nat) (s : St) : Prop := ∀ t, t < k → s.pc t = .idle

instance (k : Nat) (s : St) : Decidable (Quiet k s) := inferInstanceAs (Decidable (∀ t, t < k → _))

/-- In addition, threads are numbered below `k`, and a notificator is unset or destroyed only while no thread is within
`notify`. -/
def waiting (k : Nat) (s : St) (o : Op) : Prop :=
  asked s o ∧ match o with
    | .unset => Quiet k s
    | .destroy _ => Quiet k s
    | .run t => t < k
    | _ => True

instance (k : Nat) (s : St) (o : Op) : Decidable (waiting k s o) := by
  unfold waiting
  cases o <;> infer_instance

/-- In addition, so is setting one. -/
def still (k : Nat) (s : St) (o : Op) : Prop :=
  waiting k s o ∧ match o with
    | .set _ => Quiet k s
    | _ => True

instance (k : Nat) (s : St) (o : Op) : Decidable (still k s o) := by
  unfold still
  cases o <;> infer_instance

end Flame.Notify
