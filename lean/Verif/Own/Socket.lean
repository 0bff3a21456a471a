import Verif.Own.Spec

/-!
# Sockets: `NetworkBase` (src/Os/Network/NetworkBase.cpp) and `TcpServer::WithClient` (src/Os/Network/TcpServer.cpp)

The operating system keeps a table of open descriptors.  An entry is either a socket made by the library
(numbered by order of creation) or `foreign` (standard input and everything else the process has open).
`TcpClient`, `TcpServer`, `UdpClient`, `UdpServer` construct, move and destroy themselves only through
`NetworkBase` (TcpClient.cpp 13-25, TcpServer.cpp 15-31, UdpServer.cpp 13-25, UdpClient.cpp 13-25), so one model
serves them.

Simplifications: a `Socket` is its descriptor (the address plays no role here); `::close` succeeds exactly when
the descriptor is open (EINTR/EIO are not modelled).
-/

namespace Flame.Own.Sock

inductive Holder where
  | foreign
  | ours (r : Nat)
  deriving DecidableEq, Repr

/-- `socket.descriptor` and `status`. -/
structure Var where
  fd : Int
  status : Int
  deriving DecidableEq, Repr

structure St where
  vars : Nat → Option Var
  tab : Int → Option Holder
  next : Nat
  log : List Ev

/-- A process that has the descriptors in `t` open. -/
def start (t : Int → Bool) : St := ⟨fun _ => none, fun d => if t d then some .foreign else none, 0, []⟩

/-- `SOCKET_INVALID.descriptor` (include/FlameIDE/Os/Posix/Constants.hpp 13, 25-27). -/
def invalidFd : Int := -1

/-- `SOCKET_INITIALIZER.descriptor` (Constants.hpp 19-22: `OS_SOCKET_DESCRIPTOR_INITIALIZER = {}`). -/
def initializerFd : Int := 0

def STATUS_SUCCESS : Int := 0
def STATUS_FAILED : Int := -1

/-- src/Os/Posix/Network/SocketFunctions.cpp 149-158 `socket::destroy`: `::close`; on success the descriptor
becomes invalid.  Result: new table, log, descriptor, status. -/
def destroy (tab : Int → Option Holder) (log : List Ev) (fd : Int) : (Int → Option Holder) × List Ev × Int × Int :=
  match tab fd with
  | some (.ours r) => (upd tab fd none, .closed r :: log, invalidFd, STATUS_SUCCESS)
  | some .foreign => (upd tab fd none, .closedForeign :: log, invalidFd, STATUS_SUCCESS)
  | none => (tab, .closedNothing :: log, fd, -9)

/-- NetworkBase.cpp 37-40 `operator bool`. -/
def valid (v : Var) : Bool := (invalidFd != v.fd) || decide (0 ≤ v.status)

/-- NetworkBase.cpp 71-77 constructor (`status` starts as 0, NetworkBase.hpp 60). -/
def ctor (fd : Int) : Var :=
  let v : Var := ⟨fd, 0⟩
  if valid v then v else { v with status := STATUS_FAILED }

inductive Op where
  /-- construction from a socket the system has just created (`some fd`) or failed to create (`none`) -/
  | create (i : Nat) (fd : Option Int)
  /-- any operation that records a status (`setStatus`, NetworkBase.cpp 95-98) -/
  | setStatus (i : Nat) (status : Int)
  /-- `TcpClient::disconnect` (TcpClient.cpp 33-37) -/
  | disconnect (i : Nat)
  /-- `TcpClient::reconnect` (TcpClient.cpp 39-48); `fd`: what `socket()` gives, `rc`: what `connect` gives -/
  | reconnect (i : Nat) (fd : Option Int) (rc : Int)
  | moveCtor (i j : Nat)
  | moveAssign (i j : Nat)
  | drop (i : Nat)
  deriving DecidableEq, Repr

/-- Which class: `NetworkBase` or `TcpServer::WithClient`. -/
inductive Cls where
  | base
  | client
  deriving DecidableEq, Repr

/-- Whether the destructor closes: NetworkBase.cpp 29-35; TcpServer.cpp 80-88. -/
def closes : Cls → Var → Bool
  | .base, v => valid v
  | .client, v => v.fd != initializerFd

/-- Construction from a socket: NetworkBase.cpp 71-77; TcpServer.cpp 75-78 (status of a failed accept is
negative). -/
def construct : Cls → Int → Var
  | .base, fd => ctor fd
  | .client, fd => ⟨fd, if fd = invalidFd then STATUS_FAILED else STATUS_SUCCESS⟩

/-- TcpClient.cpp 45-47: `socket = createTcpClient(ip); return connect();`.  Whatever the member held is written over; a socket that could
not be made leaves `Socket{}`, whose descriptor is −1 (include/FlameIDE/Os/Posix/Types.hpp 89-90). -/
def renew (s : St) (i : Nat) (fd : Option Int) (rc : Int) : St :=
  match fd with
  | some d => { vars := upd s.vars i (some ⟨d, rc⟩), tab := upd s.tab d (some (.ours s.next)),
                next := s.next + 1, log := .made s.next :: s.log }
  | none => { s with vars := upd s.vars i (some ⟨invalidFd, rc⟩) }

/-- What `disconnect` (TcpClient.cpp 33-37) leaves: the descriptor and status `destroy` gives. -/
def closed (s : St) (i : Nat) (v : Var) : St :=
  let r := destroy s.tab s.log v.fd
  { s with vars := upd s.vars i (some ⟨r.2.2.1, r.2.2.2⟩), tab := r.1, log := r.2.1 }

def step (c : Cls) (s : St) : Op → Res St
  | .create i fd => match s.vars i with
    | some _ => .ub
    | none => match fd with
      | some d => .ok { vars := upd s.vars i (some (construct c d)), tab := upd s.tab d (some (.ours s.next)),
                        next := s.next + 1, log := .made s.next :: s.log }
      | none => .ok { s with vars := upd s.vars i (some (construct c invalidFd)) }
  | .setStatus i st => match s.vars i with
    | some v => .ok { s with vars := upd s.vars i (some { v with status := st }) }
    | none => .ub
  | .disconnect i => match s.vars i with
    | some v => .ok (closed s i v)
    | none => .ub
  -- TcpClient.cpp 39-48
  | .reconnect i fd rc => match s.vars i with
    | some v =>
      if v.fd ≠ invalidFd then
        if (destroy s.tab s.log v.fd).2.2.2 < 0 then .ok (closed s i v) else .ok (renew (closed s i v) i fd rc)
      else .ok (renew s i fd rc)
    | none => .ub
  -- NetworkBase.cpp 79-82 (construct from the same socket, then assign); TcpServer.cpp 70-73
  | .moveCtor i j => match s.vars i, s.vars j with
    | none, some v => .ok { s with vars := upd (upd s.vars i (some v)) j (some ⟨initializerFd, STATUS_SUCCESS⟩) }
    | _, _ => .ub
  -- NetworkBase.cpp 84-93; TcpServer.cpp 90-99
  | .moveAssign i j => match s.vars i, s.vars j with
    | some _, some v => .ok { s with vars := upd (upd s.vars i (some v)) j (some ⟨initializerFd, STATUS_SUCCESS⟩) }
    | _, _ => .ub
  | .drop i => match s.vars i with
    | some v =>
      if closes c v then
        let r := destroy s.tab s.log v.fd
        .ok { s with vars := upd s.vars i none, tab := r.1, log := r.2.1 }
      else .ok { s with vars := upd s.vars i none }
    | none => .ub

/-- The socket a variable is responsible for. -/
def owner (s : St) (i : Nat) : Option Nat :=
  match s.vars i with
  | some v => match s.tab v.fd with
    | some (.ours r) => some r
    | _ => none
  | none => none

/-- What caller and system guarantee: variables are declared before use and only once; the system hands out only
descriptors that are not open and not negative (`reconnect` may be given the one it has just closed). -/
def pre (s : St) : Op → Prop
  | .create i (some d) => s.vars i = none ∧ s.tab d = none ∧ 0 ≤ d
  | .create i none => s.vars i = none
  | .reconnect i (some d) _ => s.vars i ≠ none ∧ 0 ≤ d ∧ (s.tab d = none ∨ (s.vars i).map Var.fd = some d)
  | .reconnect i none _ | .setStatus i _ | .disconnect i | .drop i => s.vars i ≠ none
  | .moveCtor i j => s.vars i = none ∧ s.vars j ≠ none
  | .moveAssign i j => s.vars i ≠ none ∧ s.vars j ≠ none

instance (s : St) (o : Op) : Decidable (pre s o) := by
  cases o with
  | create i fd => cases fd <;> unfold pre <;> infer_instance
  | reconnect i fd rc => cases fd <;> unfold pre <;> infer_instance
  | _ => unfold pre; infer_instance

/-- Additionally: no variable is assigned over while it holds a socket, nothing is assigned to itself, and (for
`NetworkBase`) a variable that was moved from is not disconnected, reconnected or destroyed. -/
def careful (c : Cls) (s : St) (o : Op) : Prop :=
  pre s o ∧ match o with
    | .moveAssign i j => owner s i = none ∧ i ≠ j
    | .disconnect i | .reconnect i _ _ => (s.vars i).map Var.fd ≠ some initializerFd
    | .drop i => c = .base → (s.vars i).map Var.fd ≠ some initializerFd
    | _ => True

instance (c : Cls) (s : St) (o : Op) : Decidable (careful c s o) := by
  unfold careful
  cases o <;> infer_instance

end Flame.Own.Sock
