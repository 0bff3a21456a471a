import Verif.Own.Spec
import Verif.Net.Tcp

/-!
# One direction of a TCP connection between two objects of the library

`TcpClient::send` / `TcpServer::WithClient::send` at one end, `receive` and `numberBytesToRead` at the other
(src/Os/Posix/Network/TcpSocketFunctions.cpp 24-34, 107-120; src/Os/Posix/Network/SocketFunctions.cpp 160-170; src/Os/Network/TcpClient.cpp 50-76;
src/Os/Network/TcpServer.cpp 101-137).

The system is modelled by what it guarantees: bytes it accepted reach the receiving socket in order; `send` accepts a non-empty beginning of what
it is given or fails; `recv` hands over as many of the arrived bytes as fit, or 0 when the sender has closed and everything was handed over, or
fails; a failure with EPIPE also raises SIGPIPE unless MSG_NOSIGNAL was passed, and SIGPIPE ends a process that left it at its default.

Simplifications: a call that blocks is not a step (the step is its completion); ranges are proper (`begin ≤ end`); urgent data is not modelled.
-/

namespace Flame.Flow
open Own

abbrev Byte := Nat

/-- EPIPE. -/
def EPIPE : Nat := 32

structure St where
  /-- accepted by the system, not yet at the receiving socket -/
  wire : List Byte
  /-- arrived, not yet handed over -/
  queue : List Byte
  /-- the bytes `receive` has written into the reader's buffers so far, in order -/
  received : List Byte
  /-- the calls of `send` that returned: the bytes of the range, the value returned (newest last) -/
  sent : List (List Byte × Int)
  /-- the values returned by `receive`, with the sizes of the ranges (newest last) -/
  got : List (Nat × Int)
  /-- `status` of the sending and of the receiving object -/
  statusW : Int
  statusR : Int
  /-- the sending socket is open -/
  isOpen : Bool
  /-- the sending process was ended by a signal -/
  dead : Bool
  deriving DecidableEq, Repr

def start : St := ⟨[], [], [], [], [], 0, 0, true, false⟩

inductive Op where
  /-- `send` of a range holding `bytes`; the system accepts the first `k` -/
  | send (bytes : List Byte) (k : Nat)
  /-- `send` of a range holding `bytes`; the system fails with `code` -/
  | sendFails (bytes : List Byte) (code : Nat)
  /-- the network carries `k` bytes to the receiving socket -/
  | carry (k : Nat)
  /-- `receive` into a range of `n` bytes, completed by the system without failure -/
  | receive (n : Nat)
  /-- `receive` into a range of `n` bytes; the system fails with `code` -/
  | receiveFails (n : Nat) (code : Nat)
  /-- the sending object disconnects or goes away -/
  | close
  deriving DecidableEq, Repr

/-- `flags` of the `::send` call: TcpSocketFunctions.cpp 111 passes `{}`, so MSG_NOSIGNAL is not set. -/
def noSignalFlag : Bool := false

/-- What happens to the calling process when `::send` fails: ended by SIGPIPE or not.  `dfl`: the process left SIGPIPE at its default. -/
def killed (dfl : Bool) (code : Nat) : Bool := dfl && decide (code = EPIPE) && !noSignalFlag

/-- One step; `dfl`: the sending process left SIGPIPE at its default (the library never changes it).  TcpSocketFunctions.cpp 107-115 `send`:
`::send(descriptor, begin, end - begin, {})`; 117-120 and 24-34 `receive`; the classes store a failure in `status` and return −1
(TcpClient.cpp 56-76, TcpServer.cpp 117-137, `Tcp.transfer`). -/
def step (dfl : Bool) (s : St) : Op → Res St
  | .send bytes k =>
    let r := Tcp.transfer (.ok k) s.statusW
    .ok { s with wire := s.wire ++ bytes.take k, sent := s.sent ++ [(bytes, r.1)], statusW := r.2 }
  | .sendFails bytes code =>
    if killed dfl code then .ok { s with dead := true, isOpen := false }
    else
      let r := Tcp.transfer (.error code) s.statusW
      .ok { s with sent := s.sent ++ [(bytes, r.1)], statusW := r.2 }
  | .carry k => .ok { s with queue := s.queue ++ s.wire.take k, wire := s.wire.drop k }
  | .receive n =>
    let r := Tcp.transfer (.ok (min n s.queue.length)) s.statusR
    .ok { s with received := s.received ++ s.queue.take n, queue := s.queue.drop n, got := s.got ++ [(n, r.1)], statusR := r.2 }
  | .receiveFails n code =>
    let r := Tcp.transfer (.error code) s.statusR
    .ok { s with got := s.got ++ [(n, r.1)], statusR := r.2 }
  | .close => .ok { s with isOpen := false }

/-- What the system guarantees (file header).  A `receive` completes when something has arrived, or the range is empty, or the sender has closed
and everything was carried over. -/
def pre (s : St) : Op → Prop
  | .send bytes k => s.isOpen = true ∧ k ≤ bytes.length ∧ (bytes ≠ [] → k ≠ 0)
  | .sendFails _ code => s.dead = false ∧ code ≠ 0
  | .carry _ => True
  | .receive n => s.queue ≠ [] ∨ n = 0 ∨ (s.isOpen = false ∧ s.wire = [])
  | .receiveFails _ code => code ≠ 0
  | .close => s.isOpen = true

instance (s : St) (o : Op) : Decidable (pre s o) := by
  cases o <;> unfold pre <;> infer_instance

/-- SocketFunctions.cpp 160-170 through `numberBytesToRead` (TcpClient.cpp 50-54, TcpServer.cpp 101-105) at the receiving end: `ioctl(FIONREAD)`
counts what has arrived. -/
def numberBytesToRead (s : St) : Int := (s.queue.length : Int)

end Flame.Flow
