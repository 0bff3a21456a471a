import Verif.Basic

/-!
# Status of the network objects

`NetworkBase` (src/Os/Network/NetworkBase.cpp 29-45, 71-77, 95-98), `TcpClient` (TcpClient.cpp 17-76), `UdpClient` (UdpClient.cpp 17-48),
`TcpServer` (TcpServer.cpp 19-43), `TcpServer::WithClient` (TcpServer.cpp 75-78, 107-137), `UdpServer::WithClient` (UdpServer.cpp 57-84).

Every call made to the operating system is given by its result, as the functions of namespace `socket` report it: negative (minus `errno`)
on failure.  The results are part of the operation, so that a history is a list of operations.

Simplifications: a socket is its descriptor; what was transferred is not modelled here (Net/Tcp, Net/Udp).
-/

namespace Flame.NetStatus

/-- The members `socket.descriptor` and `status`. -/
structure Obj where
  fd : Int
  status : Int
  deriving DecidableEq, Repr

/-- `static_cast<Status>` of an `ssize_t`: the low 32 bits, signed (`Status` is `int`, Posix/Types.hpp 61). -/
def toStatus (r : Int) : Int := Int.bmod r (2 ^ 32)

/-- NetworkBase.cpp 37-40 `operator bool`. -/
def valid (o : Obj) : Bool := (-1 != o.fd) || decide (0 ≤ o.status)

/-- NetworkBase.cpp 71-77 (`status` starts as 0, NetworkBase.hpp 60); `fd` is -1 if no socket could be made. -/
def ofSocket (fd : Int) : Obj :=
  let o : Obj := ⟨fd, 0⟩
  if valid o then o else { o with status := -1 }

inductive Op where
  | connect (r : Int)
  | disconnect (r : Int)
  /-- results of closing, of making the socket and of connecting -/
  | reconnect (rd fd rc : Int)
  | send (r : Int)
  | receive (r : Int)
  | pending (r : Int)
  deriving DecidableEq, Repr

/-- TcpClient.cpp 27-31. -/
def connect (o : Obj) (r : Int) : Obj × Int := ({ o with status := r }, r)

/-- TcpClient.cpp 33-37 with Posix/Network/SocketFunctions.cpp 149-158: the descriptor is given up only if closing succeeded. -/
def disconnect (o : Obj) (r : Int) : Obj × Int := if r < 0 then ({ o with status := r }, r) else (⟨-1, r⟩, r)

/-- TcpClient.cpp 39-48. -/
def reconnect (o : Obj) (rd fd rc : Int) : Obj × Int :=
  if o.fd ≠ -1 then
    if (disconnect o rd).2 < 0 then ((disconnect o rd).1, (disconnect o rd).1.status)
    else connect { (disconnect o rd).1 with fd := fd } rc
  else connect { o with fd := fd } rc

/-- TcpClient.cpp 56-76; TcpServer.cpp 117-137. -/
def transfer (o : Obj) (r : Int) : Obj × Int := if r < 0 then ({ o with status := toStatus r }, -1) else (o, r)

/-- A step of a `TcpClient`: the object afterwards and what the call returns. -/
def tcpStep (o : Obj) : Op → Obj × Int
  | .connect r => connect o r
  | .disconnect r => disconnect o r
  | .reconnect rd fd rc => reconnect o rd fd rc
  | .send r => transfer o r
  | .receive r => transfer o r
  -- TcpClient.cpp 50-54
  | .pending r => (o, r)

def tcpRun (o : Obj) (ops : List Op) : Obj := ops.foldl (fun o x => (tcpStep o x).1) o

/-- UdpClient.cpp 26-48 (`wait`, `send`, `receive`): the result of the system is passed on. -/
def udpStep (o : Obj) (r : Int) : Obj × Int := if r < 0 then ({ o with status := toStatus r }, r) else (o, r)

def udpRun (o : Obj) (rs : List Int) : Obj := rs.foldl (fun o r => (udpStep o r).1) o

/-- TcpServer.cpp 19-25: construction, then `listen` with result `r`. -/
def server (fd r : Int) : Obj := { ofSocket fd with status := r }

/-- TcpServer.cpp 33-43: the accepted connection, and whether the system was asked; `r` is the descriptor the system gives (-1: none) and
`e` the `errno` in that case (Posix/Network/TcpSocketFunctions.cpp 55-74). -/
def accept (o : Obj) (r e : Int) : Obj × Bool :=
  if o.status < 0 then (⟨-1, o.status⟩, false) else (⟨r, if r = -1 then -e else 0⟩, true)

/-- TcpServer.cpp 117-137: an accepted connection only transfers. -/
def acceptedRun (o : Obj) (rs : List Int) : Obj := rs.foldl (fun o r => (transfer o r).1) o

/-- UdpServer.cpp 57-84: `receiveBytesResult` of a `WithClient` after construction with result `r0` and the calls with results `rs`. -/
def peerRun (r0 : Int) (rs : List Int) : Int := rs.foldl (fun _ r => r) r0

/-- UdpServer.cpp 62-65 `operator bool`. -/
def peerValid (status : Int) : Bool := decide (0 ≤ status)

end Flame.NetStatus
