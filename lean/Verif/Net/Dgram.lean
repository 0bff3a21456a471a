import Verif.Own.Spec

/-!
# A UDP server and its clients exchanging datagrams

`UdpClient::send`/`receive`/`wait` (src/Os/Network/UdpClient.cpp 29-51) and `UdpServer::WithClient::receive`/`send`
(src/Os/Network/UdpServer.cpp 72-84) over `socket::udp` (src/Os/Posix/Network/UdpSocketFunctions.cpp 14-105).

The system is modelled by what it guarantees for UDP sockets: `sendto` takes a whole datagram or fails; a datagram on its way may be lost,
overtaken or doubled, never changed, joined with another or split; `recvfrom` takes the oldest datagram that arrived at the socket's address,
whoever sent it, hands over as much as fits and throws the rest away (without MSG_TRUNC in its flags it returns the number of bytes handed over);
FIONREAD tells the size of the oldest one.  The library does not `connect` a client's socket (SocketFunctions.cpp 92-101), so the system does not
filter what arrives there by its source.

Simplifications: one server, at address `srv`, using one `WithClient` object; a client is named by the local address the system gives its socket
with the first `sendto`; a call that blocks is not a step (the step is its completion).
-/

namespace Flame.Dgram
open Own (upd upd_self upd_ne)

abbrev Addr := Nat
abbrev Bytes := List Nat

structure Pkt where
  src : Addr
  dst : Addr
  data : Bytes
  deriving DecidableEq, Repr

/-- A completed `receive`: at which address, the size of the range, the value returned, the bytes put at the front of the range; `from_` is not
seen by a client's caller. -/
structure Got where
  at_ : Addr
  room : Nat
  ret : Int
  data : Bytes
  from_ : Addr
  deriving DecidableEq, Repr

structure St where
  /-- on their way -/
  flying : List Pkt
  /-- arrived at an address, oldest first -/
  queue : Addr → List Pkt
  /-- every datagram the system took from anybody -/
  sent : List Pkt
  /-- newest last -/
  got : List Got
  /-- clients whose socket has its address -/
  bound : Addr → Bool
  /-- `socketClient` of the server's `WithClient`; `none`: nothing received through it yet -/
  peer : Option Addr
  /-- `NetworkBase::status` of the clients -/
  status : Addr → Int
  /-- values returned by `send`, newest last -/
  rets : List Int

def start : St := ⟨[], fun _ => [], [], [], fun _ => false, none, fun _ => 0, []⟩

inductive Op where
  | clientSend (a : Addr) (b : Bytes)
  /-- `sendto` fails with `code` -/
  | clientSendFails (a : Addr) (b : Bytes) (code : Nat)
  | clientReceive (a : Addr) (n : Nat)
  | clientReceiveFails (a : Addr) (n code : Nat)
  | serverReceive (n : Nat)
  | serverSend (b : Bytes)
  /-- somebody else sends a datagram -/
  | foreign (p : Pkt)
  /-- the `k`-th datagram on its way arrives / is lost / is doubled -/
  | carry (k : Nat)
  | lose (k : Nat)
  | double (k : Nat)
  deriving DecidableEq, Repr

/-- A datagram leaves. -/
def emit (s : St) (p : Pkt) : St :=
  { s with flying := s.flying ++ [p], sent := s.sent ++ [p] }

/-- UdpSocketFunctions.cpp 32-53 and 55-73 without failure: `recvfrom` of the oldest datagram, cut to `n` bytes. -/
def take (s : St) (a : Addr) (n : Nat) : Res St :=
  match s.queue a with
  | [] => .loop
  | p :: rest =>
    .ok { s with
      queue := upd s.queue a rest
      got := s.got ++ [⟨a, n, ((p.data.take n).length : Int), p.data.take n, p.src⟩] }

/-- `UdpClient::send`, `receive` after the native call (UdpClient.cpp 37-51): a negative result is also stored in the status. -/
def settle (s : St) (a : Addr) (result : Int) : St :=
  if result < 0 then { s with status := upd s.status a result } else s

/-- Remove the `k`-th datagram on its way. -/
def without (s : St) (k : Nat) : St := { s with flying := s.flying.eraseIdx k }

def step (srv : Addr) (s : St) : Op → Res St
  -- UdpClient.cpp 37-43, UdpSocketFunctions.cpp 14-30: to the address in the client's `Socket`
  | .clientSend a b =>
    let s' := emit { s with bound := upd s.bound a true } ⟨a, srv, b⟩
    .ok (settle { s' with rets := s.rets ++ [(b.length : Int)] } a (b.length : Int))
  | .clientSendFails a _ code =>
    .ok (settle { s with rets := s.rets ++ [-(code : Int)] } a (-(code : Int)))
  -- UdpClient.cpp 45-51, UdpSocketFunctions.cpp 55-73: the source goes to a local variable nobody reads
  | .clientReceive a n => if s.bound a then take s a n else .loop
  | .clientReceiveFails a n code =>
    .ok (settle { s with got := s.got ++ [⟨a, n, -(code : Int), [], 0⟩] } a (-(code : Int)))
  -- UdpServer.cpp 72-78: the source is kept in `socketClient`
  | .serverReceive n =>
    match s.queue srv with
    | [] => .loop
    | p :: _ => take { s with peer := some p.src } srv n
  -- UdpServer.cpp 80-84: to `socketClient`; before anything was received its descriptor pointer is null (C77)
  | .serverSend b =>
    match s.peer with
    | none => .ub
    | some a => .ok { emit s ⟨srv, a, b⟩ with rets := s.rets ++ [(b.length : Int)] }
  | .foreign p => .ok (emit s p)
  | .carry k =>
    match s.flying[k]? with
    | none => .loop
    | some p => .ok { without s k with queue := upd s.queue p.dst (s.queue p.dst ++ [p]) }
  | .lose k => .ok (without s k)
  | .double k =>
    match s.flying[k]? with
    | none => .loop
    | some p => .ok { s with flying := s.flying ++ [p] }

/-- What the system guarantees: error codes are positive; strangers do not use the server's address nor a client's. -/
def pre (srv : Addr) (s : St) : Op → Prop
  | .clientSend a _ => a ≠ srv
  | .clientSendFails a _ code => a ≠ srv ∧ code ≠ 0
  | .clientReceive a _ => a ≠ srv
  | .clientReceiveFails a _ code => a ≠ srv ∧ code ≠ 0
  | .foreign p => p.src ≠ srv ∧ s.bound p.src = false
  | _ => True

/-- The same without strangers. -/
def quiet (srv : Addr) (s : St) (o : Op) : Prop := pre srv s o ∧ ∀ p, o ≠ .foreign p

instance (srv : Addr) (s : St) (o : Op) : Decidable (pre srv s o) := by
  cases o <;> unfold pre <;> infer_instance

instance (srv : Addr) (s : St) (o : Op) : Decidable (quiet srv s o) := by
  unfold quiet
  cases o with
  | foreign p => exact isFalse fun h => h.2 p rfl
  | _ => exact decidable_of_iff (pre srv s _) ⟨fun h => ⟨h, fun p e => by cases e⟩, fun h => h.1⟩

/-- `waitClient`, `waitServer` (UdpSocketFunctions.cpp 75-105): a byte is peeked at (MSG_PEEK leaves the datagram where it is; the call returns when
one is there), then FIONREAD. -/
def wait (s : St) (a : Addr) : Res Int :=
  match s.queue a with
  | [] => .loop
  | p :: _ => .ok (p.data.length : Int)

end Flame.Dgram
