import Verif.Own.Spec

/-!
# UDP servers and their `WithClient` objects

src/Os/Network/UdpServer.cpp 13-33, 57-84; src/Os/Posix/Network/UdpSocketFunctions.cpp 14-53, 75-89;
include/FlameIDE/Os/Types.hpp 77-89.

A server is a variable holding a descriptor.  A `WithClient` holds a pointer to the server's `Socket` member (`srv`), the address of the
peer and a pointer to the descriptor member of that `Socket` (`desc`); both pointers are modelled by the server's variable.
The network is a list of waiting datagrams per descriptor; what the program does to the network is logged, newest first.
-/

namespace Flame.Udp
open Flame.Own (upd upd_self upd_ne)

abbrev Peer := Nat
abbrev Bytes := List Nat

structure Client where
  srv : Nat
  /-- `socketClient.address`; `none`: zero -/
  peer : Option Peer
  /-- `socketClient.descriptor`; `none`: null -/
  desc : Option Nat
  deriving DecidableEq, Repr

inductive Ev where
  /-- client object `c` is a new one -/
  | fresh (c : Nat)
  /-- client object `c` is a copy of `c'` -/
  | copied (c c' : Nat)
  /-- a datagram of `p` was taken from descriptor `fd` by `c`; `b` is what the caller got -/
  | rx (c : Nat) (fd : Nat) (p : Peer) (b : Bytes)
  /-- `b` was sent to `p` through `fd` by `c` -/
  | tx (c : Nat) (fd : Nat) (p : Option Peer) (b : Bytes)
  deriving DecidableEq, Repr

structure St where
  /-- descriptor held by a server variable -/
  servers : Nat → Option Nat
  clients : Nat → Option Client
  /-- waiting datagrams -/
  inbox : Nat → List (Peer × Bytes)
  log : List Ev

def init (inbox : Nat → List (Peer × Bytes)) : St := ⟨fun _ => none, fun _ => none, inbox, []⟩

inductive Op where
  /-- `UdpServer(port)`; the system returns descriptor `fd` -/
  | server (i fd : Nat)
  /-- `UdpServer i(move(j))` -/
  | moveServer (i j : Nat)
  | dropServer (i : Nat)
  /-- a datagram arrives -/
  | arrive (fd : Nat) (p : Peer) (b : Bytes)
  /-- `WithClient c = i.wait()` -/
  | wait (c i : Nat)
  /-- copy construction / assignment of `WithClient` -/
  | copy (c c' : Nat)
  /-- `c.receive(range)` with room for `n` bytes -/
  | receive (c n : Nat)
  | send (c : Nat) (b : Bytes)
  deriving DecidableEq, Repr

/-- UdpSocketFunctions.cpp 32-53: `recvfrom` on the server's descriptor: the first datagram is taken, cut to the room given.  An empty queue
means the call does not return (blocking mode). -/
def receive (s : St) (c : Nat) (cl : Client) (n : Nat) : Res St :=
  match s.servers cl.srv with
  | none => .ub
  | some fd => match s.inbox fd with
    | [] => .loop
    | (p, b) :: rest => .ok { s with
        inbox := upd s.inbox fd rest
        clients := upd s.clients c (some { cl with peer := some p, desc := some cl.srv })
        log := .rx c fd p (b.take n) :: s.log }

/-- UdpServer.cpp 80-84, UdpSocketFunctions.cpp 14-30: the `SocketReceive` is converted to a `Socket` by dereferencing its descriptor
pointer (Types.hpp 83-89), then `sendto`. -/
def send (s : St) (c : Nat) (cl : Client) (b : Bytes) : Res St :=
  match cl.desc with
  | none => .ub
  | some i => match s.servers i with
    | none => .ub
    | some fd => .ok { s with log := .tx c fd cl.peer b :: s.log }

def step (s : St) : Op → Res St
  | .server i fd => match s.servers i with
    | some _ => .ub
    | none => .ok { s with servers := upd s.servers i (some fd) }
  -- UdpServer.cpp 13-15, NetworkBase.cpp 79-93: the source is left with descriptor 0
  | .moveServer i j => match s.servers i, s.servers j with
    | none, some fd => .ok { s with servers := upd (upd s.servers i (some fd)) j (some 0) }
    | _, _ => .ub
  | .dropServer i => match s.servers i with
    | some _ => .ok { s with servers := upd s.servers i none }
    | none => .ub
  | .arrive fd p b => .ok { s with inbox := upd s.inbox fd (s.inbox fd ++ [(p, b)]) }
  -- UdpServer.cpp 27-33, 57-60: the datagram is only peeked at, and the address found is not kept
  | .wait c i => match s.servers i with
    | none => .ub
    | some fd => match s.inbox fd with
      | [] => .loop
      | _ :: _ => .ok { s with clients := upd s.clients c (some ⟨i, none, none⟩), log := .fresh c :: s.log }
  | .copy c c' => match s.clients c' with
    | some cl => .ok { s with clients := upd s.clients c (some cl), log := .copied c c' :: s.log }
    | none => .ub
  | .receive c n => match s.clients c with
    | some cl => receive s c cl n
    | none => .ub
  | .send c b => match s.clients c with
    | some cl => send s c cl b
    | none => .ub

/-- Servers stay where they are while there are clients of them. -/
def careful (s : St) : Op → Prop
  | .server i _ => s.servers i = none
  | .moveServer i j => s.servers i = none ∧ s.servers j ≠ none ∧ ∀ c cl, s.clients c = some cl → cl.srv ≠ j
  | .dropServer i => s.servers i ≠ none ∧ ∀ c cl, s.clients c = some cl → cl.srv ≠ i
  | .arrive _ _ _ => True
  | .wait _ i => s.servers i ≠ none
  | .copy _ c' => s.clients c' ≠ none
  | .receive c _ => s.clients c ≠ none
  -- something was received before
  | .send c _ => ∃ cl, s.clients c = some cl ∧ cl.desc ≠ none

end Flame.Udp
