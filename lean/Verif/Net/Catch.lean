import Verif.Own.Spec

/-!
# Registering a descriptor and taking connections — src/Os/Posix/Async/Network/EventCatcher.cpp 91-168

Two further views of the event catcher (`Net/Events.lean` has the dispatch, `Conc/Queue.lean` the queues).

*Registration.*  `enableSignal` (154-168) makes three `fcntl` calls one after the other; data may arrive before, between and after them.  The
system (Linux, fcntl(2)): the signal is raised at the moment data arrives, only while `O_ASYNC` is set and an owner is known; data that is
already there raises nothing.  Unless `F_SETSIG` has been called, the default `SIGIO` — the same number as `SIGPOLL` — is sent without a
descriptor, and `si_fd` reads 0.

*Taking connections.*  The handler accepts a connection (117-144) and pushes its descriptor into a bounded queue, ignoring the result (141-142).
-/

namespace Flame.Catch
open Flame.Own (upd upd_self upd_ne)

/-- What has been set on a descriptor. -/
structure Desc where
  async : Bool
  owner : Bool
  sig : Bool
  deriving DecidableEq, Repr

structure St where
  desc : Nat → Desc
  /-- data is waiting in the socket -/
  unread : Nat → Bool
  /-- the descriptor is a socket of a type the handler knows (99-112) -/
  sock : Nat → Bool
  /-- `si_fd` of the waiting signal (an ordinary signal: at most one waits) -/
  pending : Option Nat
  /-- descriptors put into a queue, newest first -/
  entries : List Nat

/-- Nothing is registered. -/
def init (sock : Nat → Bool) : St := ⟨fun _ => ⟨false, false, false⟩, fun _ => false, sock, none, []⟩

inductive Op where
  /-- data arrives -/
  | data (fd : Nat)
  /-- EventCatcher.cpp 158: `F_SETFL` with `O_ASYNC | O_NONBLOCK` -/
  | setfl (fd : Nat)
  /-- 161: `F_SETOWN` -/
  | setown (fd : Nat)
  /-- 164: `F_SETSIG` -/
  | setsig (fd : Nat)
  /-- the handler runs, if a signal is waiting -/
  | deliver
  deriving DecidableEq, Repr

/-- The system raises the signal for data on `fd`. -/
def raise (s : St) (fd : Nat) : St :=
  if (s.desc fd).async && (s.desc fd).owner then
    match s.pending with
    | none => { s with pending := some (if (s.desc fd).sig then fd else 0) }
    | some _ => s
  else s

/-- 91-115: the handler, for data. -/
def handle (s : St) (fd : Nat) : St := if s.sock fd then { s with entries := fd :: s.entries } else s

def step (s : St) : Op → St
  | .data fd => raise { s with unread := upd s.unread fd true } fd
  | .setfl fd => { s with desc := upd s.desc fd { s.desc fd with async := true } }
  | .setown fd => { s with desc := upd s.desc fd { s.desc fd with owner := true } }
  | .setsig fd => { s with desc := upd s.desc fd { s.desc fd with sig := true } }
  | .deliver => match s.pending with
    | some fd => handle { s with pending := none } fd
    | none => s

def run (s : St) : List Op → St
  | [] => s
  | o :: os => run (step s o) os

/-! ## Taking connections -/

/-- Accepted descriptors are numbered in the order of acceptance. -/
structure Acc where
  cap : Nat
  /-- descriptors accepted so far: `0 … next - 1` -/
  next : Nat
  queue : List Nat
  /-- what the program was given, oldest first -/
  given : List Nat
  /-- descriptors that were closed -/
  closed : List Nat

def Acc.init (cap : Nat) : Acc := ⟨cap, 0, [], [], []⟩

inductive AOp where
  /-- the handler runs while a connection waits -/
  | accept
  /-- `Registrar::popTcpServerAcception` -/
  | pop
  /-- the program closes a descriptor it was given -/
  | close (d : Nat)
  /-- `Registrar::clear` (src/Os/Async/Network/Registrar.cpp 196): pops until nothing is left, dropping what it gets -/
  | clear
  deriving DecidableEq, Repr

def Acc.step (s : Acc) : AOp → Acc
  -- EventCatcher.cpp 136-142; QueuedArray.hpp 75-88: `push` on a full queue returns false
  | .accept => { s with next := s.next + 1, queue := if s.queue.length = s.cap then s.queue else s.queue ++ [s.next] }
  | .pop => match s.queue with
    | [] => s
    | d :: q => { s with queue := q, given := s.given ++ [d] }
  | .close d => if d ∈ s.given then { s with closed := d :: s.closed } else s
  | .clear => { s with queue := [] }

def Acc.run (s : Acc) : List AOp → Acc
  | [] => s
  | o :: os => Acc.run (s.step o) os

/-- No connection is taken while the queue is full, and `clear` is called only when nothing waits. -/
def Acc.Room (s : Acc) : List AOp → Prop
  | [] => True
  | o :: os => (o = .accept → s.queue.length < s.cap) ∧ (o = .clear → s.queue = []) ∧ Acc.Room (s.step o) os

end Flame.Catch
