import Verif.Net.Ipv4

/-!
# Socket addresses — src/Os/Posix/Network/SocketFunctions.cpp, src/Os/Network/TcpClient.cpp

A `sockaddr_in` is the memory of its two fields: the bytes of `sin_port` and of `sin_addr.s_addr`, in address order; that is what
the network sees.  `le` is the host byte order (`true`: little endian).  `inet` is the C library's `inet_addr`, as a function from
the text to the four bytes it puts in memory; what is assumed about it is stated where it is used.
-/

namespace Flame.SockAddr
open BytesSpec (Byte)

/-- Memory of the fields `sin_port` (2 bytes) and `sin_addr.s_addr` (4 bytes). -/
structure Addr where
  port : List Nat
  ip : List Nat
  deriving DecidableEq, Repr

/-- Memory of a 16-bit unsigned value. -/
def mem16 (le : Bool) (v : Nat) : List Nat := if le then [v % 256, v / 256] else [v / 256, v % 256]

/-- The 16-bit unsigned value in two bytes of memory. -/
def val16 (le : Bool) : List Nat → Nat
  | [x, y] => if le then x + 256 * y else 256 * x + y
  | _ => 0

/-- `htons`, `ntohs`: exchange the bytes on a little-endian host. -/
def swap16 (le : Bool) (v : Nat) : Nat := if le then v % 256 * 256 + v / 256 else v

/-- `static_cast<ushort_t>(port)`. -/
def toU16 (port : Int) : Nat := (port % 65536).toNat

/-- SocketFunctions.cpp 27-34: `ipAddressServer`. -/
def server (le : Bool) (port : Int) : Addr := ⟨mem16 le (swap16 le (toU16 port)), [0, 0, 0, 0]⟩

/-- SocketFunctions.cpp 36-43: `ipAddressClient`; the `Ipv4` is converted to text first (Ipv4.cpp 147-156). -/
def client (le : Bool) (inet : List Byte → List Nat) (o : Ipv4.Obj) : Res Addr :=
  match Ipv4.format o.ip with
  | .ok chars => .ok ⟨mem16 le (swap16 le (toU16 o.port)), inet (chars.takeWhile (· ≠ 0#8))⟩
  | .ub => .ub
  | .loop => .loop

/-- SocketFunctions.cpp 172-183: `getIpv4`.  The union overlays the 4 bytes of the address with an array of four 16-bit signed
numbers (Ipv4.hpp 19): the first two are made of the address bytes, the other two lie outside the stored value and keep whatever the
stack held (`j2`, `j3`). -/
def getIpv4 (le : Bool) (j2 j3 : Int) (a : Addr) : Ipv4.Obj :=
  ⟨[Ipv4.wrap16 (val16 le (a.ip.take 2)), Ipv4.wrap16 (val16 le (a.ip.drop 2)), j2, j3], (swap16 le (val16 le a.port) : Nat)⟩

/-- The members of a `TcpClient` that matter here. -/
structure Tcp where
  addr : Addr
  /-- `none`: −1 -/
  desc : Option Nat
  deriving DecidableEq, Repr

/-- SocketFunctions.cpp 137-145: `createTcpClient`; `fd`: what `socket()` returns (`none`: −1).  On failure the whole value is replaced by
`Socket{}`: a zero address, descriptor −1 (include/FlameIDE/Os/Posix/Types.hpp 89-90). -/
def createTcpClient (le : Bool) (inet : List Byte → List Nat) (fd : Option Nat) (o : Ipv4.Obj) : Res Tcp :=
  match client le inet o with
  | .ok a => if fd = none then .ok ⟨⟨[0, 0], [0, 0, 0, 0]⟩, none⟩ else .ok ⟨a, fd⟩
  | .ub => .ub
  | .loop => .loop

/-- TcpClient.cpp 39-48: `reconnect` up to the call of `connect`: the descriptor is closed if there is one (assumed to succeed), a new
socket is made for the address read back; the result's `addr` is the peer `connect` is asked for. -/
def reconnect (le : Bool) (inet : List Byte → List Nat) (j2 j3 : Int) (fd : Option Nat) (t : Tcp) : Res Tcp :=
  createTcpClient le inet fd (getIpv4 le j2 j3 t.addr)

end Flame.SockAddr
