import Verif.Net.Udp

/-!
# UDP and TCP calls on Windows — src/Os/Windows/Network/{UdpSocketFunctions,TcpSocketFunctions}.cpp

UDP: the classes (src/Os/Network/UdpServer.cpp) are those of `Verif/Net/Udp.lean`, whose state and operations are used; what differs is
`recvfrom`: a datagram longer than the room given is taken, its beginning stored and the sender's address written, but the call fails with
WSAEMSGSIZE (10040).
TCP: a probe is `recv` with MSG_PEEK on the descriptor as it is; lengths are passed as `int`.
-/

namespace Flame.WinNet
open Flame.Own (upd)

/-- WSAEMSGSIZE -/
def MSGSIZE : Int := 10040

/-- UdpSocketFunctions.cpp 42-64 `receiveServer` without MSG_PEEK: the state and what is returned. -/
def receive (s : Udp.St) (c : Nat) (cl : Udp.Client) (n : Nat) : Res (Udp.St × Int) :=
  match s.servers cl.srv with
  | none => .ub
  | some fd => match s.inbox fd with
    | [] => .loop
    | (p, b) :: rest =>
        if b.length ≤ n then
          .ok ({ s with inbox := upd s.inbox fd rest, clients := upd s.clients c (some { cl with peer := some p, desc := some cl.srv }), log := .rx c fd p (b.take n) :: s.log }, b.length)
        -- 58-61: returns before the descriptor is stored (62)
        else .ok ({ s with inbox := upd s.inbox fd rest, clients := upd s.clients c (some { cl with peer := some p }) }, -MSGSIZE)

/-- 87-101 `waitServer`: one byte is peeked at; what a peek finds. -/
def peek (b : Udp.Bytes) : Int := if b.length ≤ 1 then b.length else -MSGSIZE

/-- … and the result, given what ioctlsocket(FIONREAD) answers. -/
def waitResult (peeked fionread : Int) : Int := if peeked < 0 ∧ peeked ≠ -MSGSIZE then peeked else fionread

/-- One call: the state and what is returned (0 where nothing is).  `q`: the answer of FIONREAD. -/
def step (q : Nat) (s : Udp.St) : Udp.Op → Res (Udp.St × Int)
  | .receive c n => match s.clients c with
    | some cl => receive s c cl n
    | none => .ub
  | .wait c i => match s.servers i with
    | none => .ub
    | some fd => match s.inbox fd with
      | [] => .loop
      | (_, b) :: _ =>
          .ok ({ s with clients := upd s.clients c (some ⟨i, none, none⟩), log := .fresh c :: s.log }, waitResult (peek b) q)
  | .send c b => match Udp.step s (.send c b) with
    | .ok s' => .ok (s', b.length)
    | .ub => .ub
    | .loop => .loop
  | o => match Udp.step s o with
    | .ok s' => .ok (s', 0)
    | .ub => .ub
    | .loop => .loop

/-! ## TCP -/

/-- What `recv` of one byte with MSG_PEEK finds. -/
inductive Peek where
  | data
  /-- the peer closed its side and everything was read -/
  | eof
  /-- the connection stands, nothing is waiting -/
  | idle
  /-- failure with the code -/
  | err (code : Nat)
  deriving DecidableEq, Repr

/-- TcpSocketFunctions.cpp 18-28 `receive` of one byte with MSG_PEEK; WSAEWOULDBLOCK is 10035. -/
def recvPeek (nonblock : Bool) : Peek → Res Int
  | .data => .ok 1
  | .eof => .ok 0
  | .idle => if nonblock then .ok (-10035) else .loop
  | .err c => .ok (-(c : Int))

/-- 129-137 `alive`. -/
def alive (nonblock : Bool) (p : Peek) : Res Bool := match recvPeek nonblock p with
  | .ok r => .ok (r != 0)
  | .ub => .ub
  | .loop => .loop

/-- `static_cast<Types::int_t>(size)` -/
def toInt (size : Nat) : Int := (size : Int).bmod (2 ^ 32)

/-- 18-28, 100-113 `receive`, `send` (and UdpSocketFunctions.cpp 14-32, 42-85): the system is given the length as an `int`; it refuses negative
ones with the code `e`, otherwise it moves `min(length, avail)` bytes. -/
def transfer (size avail e : Nat) : Int :=
  if toInt size < 0 then -(e : Int) else min (toInt size) avail

end Flame.WinNet
