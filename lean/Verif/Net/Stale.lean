import Verif.Own.Spec

/-!
# Events of sockets that were removed or closed

src/Os/Async/Network/Registrar.cpp 22-60 (`add`), 64-87 (`remove`), 91-149 (`pop…`), QueuedArray.hpp 57-105 (same directory);
src/Os/Posix/Async/Network/EventCatcher.cpp 91-152 and src/Os/Windows/Async/Network/MessageDispatchThread.cpp 161-247.

Something happens to a registered socket: the system raises a signal (POSIX) or posts a message (Windows) that names the descriptor.  Later the
handler asks what socket the descriptor is *now* and puts it into the queue of that kind; later still the program pops it.  Removing or closing
the socket in between changes neither the waiting signal nor the queues.

The system: descriptors are numbers, a number is given out again after `close`; closing a socket ends its registration; a waiting signal or
message stays.  POSIX: at most one `SIGPOLL` waits.  Windows: messages are handled in order; how often FD_READ is posted is left to the system.
Simplifications: the four kinds of sockets that carry data (listeners: C78, C116, C149); `add` and `remove` succeed (C79, C115); the program calls
the overload of `add` that belongs to the kind of the socket; one thread (C36, C38).
-/

namespace Flame.Stale
open Flame.Own (upd upd_self upd_ne Reach)

inductive Kind where
  | udpServer | udpClient | tcpServer | tcpClient
  deriving DecidableEq, Repr

/-- An event: the descriptor, and (not visible to the program) the number of the socket it happened to. -/
structure Ent where
  fd : Nat
  sock : Nat
  deriving DecidableEq, Repr

/-- A popped event, with what the descriptor stood for when it was popped. -/
structure Pop where
  /-- the queue -/
  kind : Kind
  ev : Ent
  /-- the descriptor was registered -/
  reg : Bool
  /-- the socket the descriptor was, and its kind; `none`: closed -/
  now : Option (Nat × Kind)
  deriving DecidableEq, Repr

structure St where
  /-- the socket a descriptor stands for, and its kind -/
  desc : Nat → Option (Nat × Kind)
  reg : Nat → Bool
  /-- number of the next socket -/
  next : Nat
  /-- signals or messages not handled yet, oldest first -/
  waiting : List Ent
  /-- the queue was given its array -/
  made : Kind → Bool
  queue : Kind → List Ent
  /-- history: events of registered sockets -/
  happened : List Ent
  /-- history, newest first -/
  popped : List Pop

def start : St := ⟨fun _ => none, fun _ => false, 0, [], fun _ => false, fun _ => [], [], []⟩

inductive Op where
  /-- the program opens a socket and is given number `fd` -/
  | openAs (fd : Nat) (k : Kind)
  /-- Registrar.cpp 22-60 -/
  | add (fd : Nat)
  /-- Registrar.cpp 64-87 -/
  | remove (fd : Nat)
  | close (fd : Nat)
  /-- data arrives -/
  | data (fd : Nat)
  /-- the handler runs for the oldest signal or message -/
  | handle
  /-- Registrar.cpp 91-113, 127-149; QueuedArray.hpp 90-105 -/
  | pop (k : Kind)
  deriving DecidableEq, Repr

/-- The system reports an event; `posix`: at most one report waits. -/
def raise (posix : Bool) (w : List Ent) (e : Ent) : List Ent :=
  if posix && !w.isEmpty then w else w ++ [e]

/-- QueuedArray.hpp 75-88: `push`; a full queue refuses.  Without its array (`init` was not called) the first line follows a null pointer. -/
def push (cap : Nat) (made : Bool) (q : List Ent) (e : Ent) : Res (List Ent) :=
  if !made then .ub
  else if q.length = cap then .ok q
  else .ok (q ++ [e])

/-- One step.  `add`: the queue of the kind gets its array if it has none, then the descriptor is enabled.  `handle`: EventCatcher.cpp 91-152, `type` and
`isServer` ask for the socket the descriptor stands for now; a descriptor that is closed has type UNKNOWN. -/
def step (posix : Bool) (cap : Nat) (s : St) : Op → Res St
  | .openAs fd k => .ok { s with desc := upd s.desc fd (some (s.next, k)), reg := upd s.reg fd false, next := s.next + 1 }
  | .add fd => match s.desc fd with
    | some (_, k) => .ok { s with reg := upd s.reg fd true, made := fun k' => if k' = k then true else s.made k' }
    | none => .ok s
  | .remove fd => .ok { s with reg := upd s.reg fd false }
  | .close fd => .ok { s with desc := upd s.desc fd none, reg := upd s.reg fd false }
  | .data fd => match s.desc fd with
    | some (n, _) =>
      if s.reg fd then .ok { s with waiting := raise posix s.waiting ⟨fd, n⟩, happened := ⟨fd, n⟩ :: s.happened } else .ok s
    | none => .ok s
  | .handle => match s.waiting with
    | [] => .ok s
    | e :: w => match s.desc e.fd with
      | none => .ok { s with waiting := w }
      | some (_, k) => (push cap (s.made k) (s.queue k) e).bind fun q =>
          .ok { s with waiting := w, queue := fun k' => if k' = k then q else s.queue k' }
  | .pop k => match s.queue k with
    | [] => .ok s
    | e :: q => .ok { s with queue := fun k' => if k' = k then q else s.queue k',
                             popped := ⟨k, e, s.reg e.fd, s.desc e.fd⟩ :: s.popped }

/-- A number is given out only when it is free; the other calls are made on open sockets. -/
def pre (s : St) : Op → Prop
  | .openAs fd _ => s.desc fd = none
  | .add fd | .remove fd | .close fd | .data fd => s.desc fd ≠ none
  | .handle | .pop _ => True

instance (s : St) (o : Op) : Decidable (pre s o) := by
  cases o <;> unfold pre <;> infer_instance

/-- Nothing about the descriptor is on its way. -/
def Settled (s : St) (fd : Nat) : Prop := (∀ e ∈ s.waiting, e.fd ≠ fd) ∧ ∀ k, ∀ e ∈ s.queue k, e.fd ≠ fd

instance (s : St) (fd : Nat) : Decidable (Settled s fd) :=
  decidable_of_iff ((∀ e ∈ s.waiting, e.fd ≠ fd) ∧ (∀ e ∈ s.queue .udpServer, e.fd ≠ fd) ∧ (∀ e ∈ s.queue .udpClient, e.fd ≠ fd) ∧
      (∀ e ∈ s.queue .tcpServer, e.fd ≠ fd) ∧ (∀ e ∈ s.queue .tcpClient, e.fd ≠ fd))
    ⟨fun ⟨a, b, c, d, e⟩ => ⟨a, fun k => by cases k <;> assumption⟩, fun ⟨a, b⟩ => ⟨a, b _, b _, b _, b _⟩⟩

/-- The program removes and closes sockets only when nothing about them is on its way. -/
def careful (s : St) (o : Op) : Prop :=
  pre s o ∧ match o with
    | .remove fd | .close fd => Settled s fd
    | _ => True

instance (s : St) (o : Op) : Decidable (careful s o) := by
  cases o <;> unfold careful <;> infer_instance

end Flame.Stale
