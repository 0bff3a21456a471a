import Verif.Net.SockAddr
import Verif.Own.Spec

/-!
# Making and asking sockets on Windows — src/Os/Windows/Network/SocketFunctions.cpp

The system's answers are parameters.  Sockets are numbered in order of creation; a descriptor is `some r` or INVALID_SOCKET
(`none`).  Simplification: closesocket of an open socket succeeds.  Closing the number of a closed socket, which the system reuses, may close any other: it is recorded as
`closedForeign` (its status is that of a number not reused).
-/

namespace Flame.WinSock
open Flame.Own
open BytesSpec (Byte)

inductive Kind where
  | server
  | client
  deriving DecidableEq, Repr

/-- Calls to the library, newest first in the state. -/
inductive Call where
  | startup (ok : Bool)
  | socket
  deriving DecidableEq, Repr

structure St where
  /-- WinSockLibrary::inited (27) -/
  inited : Bool
  next : Nat
  /-- which sockets have SO_REUSEADDR -/
  reuse : Nat → Bool
  calls : List Call
  log : List Ev

def start : St := ⟨false, 0, fun _ => false, [], []⟩

/-- What the system answers during one creation. -/
structure Ans where
  startup : Bool
  socket : Bool
  setsockopt : Bool
  bind : Bool
  deriving DecidableEq, Repr

/-- 292-305 `init`, 322-327 `winsockInit`. -/
def winsockInit (a : Ans) (s : St) : St × Bool :=
  if s.inited then (s, true)
  else ({ s with inited := a.startup, calls := .startup a.startup :: s.calls }, a.startup)

/-- `SOCKADDR_IN`: `sin_family` (AF_INET is 2) and the two fields of `SockAddr.Addr`. -/
structure Addr where
  family : Nat
  addr : SockAddr.Addr
  deriving DecidableEq, Repr

/-- A zero `SOCKADDR_IN` (include/FlameIDE/Os/Windows/Constants.hpp 27). -/
def zero : Addr := ⟨0, ⟨[0, 0], [0, 0, 0, 0]⟩⟩

/-- include/FlameIDE/Os/Windows/Types.hpp 173-197 -/
structure Sock where
  desc : Option Nat
  addr : Addr
  deriving DecidableEq, Repr

/-- `Socket{}` and `os::SOCKET_INVALID` (Constants.hpp 33) -/
def invalid : Sock := ⟨none, zero⟩

/-- 54-61 `ipAddressServer` on a little-endian host. -/
def serverAddr (port : Int) : Addr := ⟨2, SockAddr.server true port⟩

/-- 63-76 `ipAddressClient` on a little-endian host; the `Ipv4` is converted to text first (Ipv4.cpp 147-156).
`pton` is `inet_pton`: the four bytes, or `none` for a text it does not accept. -/
def clientAddr (pton : List Byte → Option (List Nat)) (o : Ipv4.Obj) : Res Addr := match Ipv4.format o.ip with
  | .ok chars => match pton (chars.takeWhile (· ≠ 0#8)) with
    | some ip => .ok ⟨2, ⟨SockAddr.mem16 true (SockAddr.swap16 true (SockAddr.toU16 o.port)), ip⟩⟩
    | none => .ok zero
  | .ub => .ub
  | .loop => .loop

/-- 103-131 `createUdpServer`, 148-175 `createTcpServer`, 133-144 `createUdpClient`, 177-188 `createTcpClient`, given the
address.  The UDP and TCP functions differ only in what socket they ask for. -/
def create (k : Kind) (addr : Addr) (a : Ans) (s : St) : St × Sock :=
  let (s, ok) := winsockInit a s
  if ok then
    let s := { s with calls := .socket :: s.calls }
    if a.socket then
      let r := s.next
      let s := { s with next := r + 1, log := .made r :: s.log }
      match k with
      | .client => (s, ⟨some r, addr⟩)
      | .server =>
          if a.setsockopt then
            let s := { s with reuse := upd s.reuse r true }
            if a.bind then (s, ⟨some r, addr⟩)
            -- 125-128: the socket is replaced without being closed
            else (s, invalid)
          -- 117-121
          else ({ s with log := .closed r :: s.log }, invalid)
    else (s, invalid)
  else (s, invalid)

/-- 192-201 `destroy`: status and the socket afterwards; `e` is the error for a descriptor that is not open. -/
def destroy (e : Nat) (x : Sock) (s : St) : St × Sock × Int := match x.desc with
  | some r =>
      if Live r s.log then ({ s with log := .closed r :: s.log }, { x with desc := none }, 0)
      else ({ s with log := .closedForeign :: s.log }, x, -(e : Int))
  | none => ({ s with log := .closedNothing :: s.log }, x, -(e : Int))

/-- TcpClient.cpp 39-48 `reconnect` up to `connect`, on a little-endian host: the new socket is made for the address read back
(214-225 `getIpv4`, the same text as POSIX's). -/
def reconnectAddr (pton : List Byte → Option (List Nat)) (j2 j3 : Int) (x : Addr) : Res Addr :=
  clientAddr pton (SockAddr.getIpv4 true j2 j3 x.addr)

/-- 78-90 `getSocketOption`: a failed `getsockopt` gives `-errno`, but Winsock does not write `errno`. -/
def getOption (errno : Nat) : Option Int → Int
  | some v => v
  | none => -(errno : Int)

/-- 227-233 `getType`, 235-241 `getError`. -/
def getNumber (errno : Nat) (r : Option Int) : Int := if getOption errno r < 0 then -1 else getOption errno r

/-- 243-249 `isListener`, 251-257 `isServer`. -/
def getFlag (errno : Nat) (r : Option Int) : Bool := if getOption errno r < 0 then false else getOption errno r != 0

/-- What SO_REUSEADDR of an open socket is. -/
def reuseAddr (s : St) (x : Sock) : Option Int := match x.desc with
  | some r => if Live r s.log then some (if s.reuse r then 1 else 0) else none
  | none => none

inductive Op where
  | create (k : Kind) (addr : Addr) (a : Ans)
  | destroy (x : Sock) (e : Nat)

def step (s : St) : Op → St
  | .create k addr a => (create k addr a s).1
  | .destroy x e => (destroy e x s).1

end Flame.WinSock
