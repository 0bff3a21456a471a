import Verif.Own.Spec

/-!
# What SIGPOLL does to the process before, during and after the use of registrars

src/Os/Posix/Async/Network/EventCatcher.cpp 30-47 (constructor, destructor), 51-65 (`enable`, `disable`), 69-89 (`makeSigAction`); the catcher is a static
object (194-198): constructed at the first use of a registrar, destroyed at the end of the process, in the order of static objects.

The system: `sigaction` replaces the disposition of the signal and gives the former one back; a descriptor with `O_ASYNC`, an owner and a
signal raises it when data arrives; the default action of SIGPOLL is to end the process; O_ASYNC stays when the catcher is gone.
Simplifications: the signal is handled at once (coalescing: C78); the three `fcntl` of `enable` and `disable` succeed (C79); registering is one step
(C148); the program may set the disposition itself.
-/

namespace Flame.Dispo
open Flame.Own (upd upd_self upd_ne Reach)

inductive Disp where
  | dfl
  | ign
  /-- `EventCatcher::signalHandler` -/
  | lib
  /-- a handler of the program -/
  | own (n : Nat)
  deriving DecidableEq, Repr

inductive Life where
  | before | alive | over
  deriving DecidableEq, Repr

structure St where
  disp : Disp
  life : Life
  /-- member `oldAction` -/
  old : Disp
  /-- member `status` -/
  status : Int
  /-- the descriptor raises SIGPOLL -/
  reg : Nat → Bool
  /-- the signal has ended the process -/
  killed : Bool
  /-- history: the disposition the program had or set itself last -/
  chosen : Disp
  /-- history: descriptors with data while registered, and those the library was told of -/
  came : List Nat
  told : List Nat
  /-- history: the statuses returned by `add` and `remove` -/
  said : List Int

/-- The process starts with a disposition (kept over `exec` if it is ignored).  `oldAction = SigAction{}`: the handler is null, which is `SIG_DFL`. -/
def start (d : Disp) : St := ⟨d, .before, .dfl, 0, fun _ => false, false, d, [], [], []⟩

inductive Op where
  /-- the constructor; errors of `sigemptyset`/`sigaddset` and of `sigaction` -/
  | construct (mask : Option Nat) (act : Option Nat)
  /-- `enable` -/
  | add (fd : Nat)
  /-- `disable` -/
  | remove (fd : Nat)
  /-- data arrives -/
  | data (fd : Nat)
  /-- the program calls `sigaction` itself -/
  | install (d : Disp)
  /-- the destructor -/
  | destroy
  deriving DecidableEq, Repr

def step (s : St) : Op → Res St
  | .construct mask act =>
    match mask with
    -- 33-34: `sa_flags` is negative; `status` keeps its initial value, success
    | some _ => .ok { s with life := .alive }
    | none => match act with
      -- 36-38
      | some c => .ok { s with life := .alive, status := -(c : Int) }
      | none => .ok { s with life := .alive, old := s.disp, disp := .lib }
  -- 51-57
  | .add fd =>
    if s.status ≠ 0 then .ok { s with said := s.said ++ [s.status] }
    else .ok { s with reg := upd s.reg fd true, said := s.said ++ [0] }
  -- 59-65
  | .remove fd =>
    if s.status ≠ 0 then .ok { s with said := s.said ++ [s.status] }
    else .ok { s with reg := upd s.reg fd false, said := s.said ++ [0] }
  | .data fd =>
    if s.reg fd then
      match s.disp with
      | .dfl => .ok { s with killed := true, came := s.came ++ [fd] }
      | .lib => .ok { s with came := s.came ++ [fd], told := s.told ++ [fd] }
      | .ign => .ok { s with came := s.came ++ [fd] }
      | .own _ => .ok { s with came := s.came ++ [fd] }
    else .ok s
  | .install d => .ok { s with disp := d, chosen := d }
  -- 41-47
  | .destroy => if s.status ≠ 0 then .ok { s with life := .over } else .ok { s with life := .over, disp := s.old }

/-- One catcher; it is used while it lives; nothing happens in a process that has ended. -/
def pre (s : St) : Op → Prop
  | .construct mask act => s.killed = false ∧ s.life = .before ∧ mask ≠ some 0 ∧ act ≠ some 0
  | .add _ | .remove _ | .destroy => s.killed = false ∧ s.life = .alive
  | .data _ => s.killed = false
  | .install d => s.killed = false ∧ d ≠ .lib

instance (s : St) (o : Op) : Decidable (pre s o) := by
  cases o <;> unfold pre <;> infer_instance

/-- `sigemptyset` and `sigaddset` succeed; the program leaves the signal alone while the catcher lives. -/
def alone (s : St) (o : Op) : Prop :=
  pre s o ∧ match o with
    | .construct mask _ => mask = none
    | .install _ => s.life ≠ .alive
    | _ => True

/-- Moreover every socket is removed before the catcher is destroyed. -/
def careful (s : St) (o : Op) : Prop :=
  alone s o ∧ (o = .destroy → ∀ fd, s.reg fd = false)

end Flame.Dispo
