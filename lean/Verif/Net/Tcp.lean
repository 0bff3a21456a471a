import Verif.Basic

/-!
# Waiting on and probing a TCP connection — src/Os/Posix/Network/TcpSocketFunctions.cpp 107-155

The system is a parameter: what each `ioctl(FIONREAD)`, `recv` and `fcntl` answers.
-/

namespace Flame.Tcp

/-- TcpSocketFunctions.cpp 122-132: `waitBytes`, the loop.  `q k` is the answer of the
`k`-th `receivingBytesNumber` (SocketFunctions.cpp 160-170): the number of bytes waiting, or the negated error code; `fuel` bounds the number of questions. -/
def waitLoop (q : Nat → Int) (number : Nat) : Nat → Nat → Int → Res Int
  | 0, _, _ => .loop
  | fuel + 1, k, result =>
    if result = (number : Int) then .ok result
    else if q k < 0 then .ok (q k)
    else waitLoop q number fuel (k + 1) (q k)

/-- `waitBytes(socket, number)`.  Simplification: `number < 2^63`, so comparing as `size_t` is comparing numbers. -/
def waitBytes (q : Nat → Int) (number fuel : Nat) : Res Int := waitLoop q number fuel 0 0

/-- The status flags of a descriptor that matter. -/
structure Flags where
  nonblock : Bool
  async : Bool
  deriving DecidableEq, Repr

/-- What `recv` of one byte with `MSG_PEEK` finds. -/
inductive Peek where
  /-- a byte is waiting -/
  | data
  /-- the peer closed its side and everything was read -/
  | eof
  /-- failure with the code -/
  | err (code : Nat)
  deriving DecidableEq, Repr

/-- `receive` with flags (TcpSocketFunctions.cpp 24-34). -/
def peekResult : Peek → Int
  | .data => 1
  | .eof => 0
  | .err c => -(c : Int)

/-- SocketFunctions.cpp 221-228: `enableNonblock`; `ok`: whether `fcntl` succeeds. -/
def enableNonblock (ok : Bool) (f : Flags) : Flags := if ok then { f with nonblock := true } else f

/-- SocketFunctions.cpp 230-237: `disableNonblock`. -/
def disableNonblock (ok : Bool) (f : Flags) : Flags := if ok then { f with nonblock := false } else f

/-- TcpSocketFunctions.cpp 134-155: `alive`: the answer and the flags afterwards. -/
def alive (ok1 ok2 : Bool) (p : Peek) (f : Flags) : Bool × Flags :=
  if ok1 then
    if ok2 then (decide (peekResult p ≠ 0), disableNonblock ok2 (enableNonblock ok1 f))
    else (false, disableNonblock ok2 (enableNonblock ok1 f))
  else (false, enableNonblock ok1 f)

/-- `send`, `receive` (TcpSocketFunctions.cpp 107-120) under the classes (TcpClient.cpp 56-76, TcpServer.cpp 117-137): `n` is what the native
call transferred, `none`/code on failure.  Result: the returned value and the new `status`. -/
def transfer (native : Except Nat Nat) (status : Int) : Int × Int :=
  match native with
  | .ok n => ((n : Int), status)
  | .error c => if -(c : Int) < 0 then (-1, -(c : Int)) else (-(c : Int), status)

end Flame.Tcp
