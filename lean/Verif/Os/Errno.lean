import Verif.Basic

/-!
# `errno` between a failing call and its report

Every function of the POSIX back end reports a failure in two steps: the native call stores its code in the thread's `errno`, then the function
reads `errno` (src/Os/Posix/Network/TcpSocketFunctions.cpp 24-34, 48-53, 85-97, 107-115; SocketFunctions.cpp 45-55, 149-170, 221-237;
UdpSocketFunctions.cpp; src/Os/Posix/Async/Network/EventCatcher.cpp 154-184).  The library's own signal handler (EventCatcher.cpp 91-152) may run
in the same thread between the two; it does not save `errno`.

Simplifications: queue operations in the handler do not touch `errno`; a notificator is any code, given by what it leaves in `errno`.
-/

namespace Flame.Errno

/-- A native call: success, or failure with a (positive) code. -/
abbrev Out := Option Nat

/-- `errno` after a native call: unchanged by success. -/
def after : Out → Nat → Nat
  | none, e => e
  | some c, _ => c

/-- The type `getsockopt(SO_TYPE)` finds. -/
inductive Ty where
  | stream
  | dgram
  | other
  deriving DecidableEq, Repr

/-- What the calls made by one run of the handler meet. -/
structure Run where
  /-- `getsockopt(SO_TYPE)`: the code of its failure, or the type -/
  type : Except Nat Ty
  /-- `getsockopt(SO_REUSEADDR)` of `isServer`: the code of its failure, or the answer -/
  server : Except Nat Bool
  /-- `getsockopt(SO_ACCEPTCONN)` of `isListener` -/
  listener : Except Nat Bool
  /-- `accept` -/
  accept : Out
  /-- the notificator -/
  note : Out

/-- The failure in an answer. -/
def failed {α : Type} : Except Nat α → Out
  | .ok _ => none
  | .error c => some c

/-- SocketFunctions.cpp 199-217: a failing question counts as "no". -/
def yes : Except Nat Bool → Bool
  | .ok b => b
  | .error _ => false

/-- EventCatcher.cpp 117-144 `handleTcp`. -/
def handleTcp (r : Run) (e : Nat) : Nat :=
  let e := after (failed r.server) e
  if yes r.server then
    let e := after (failed r.listener) e
    if yes r.listener then after r.accept e else e
  else e

/-- EventCatcher.cpp 146-152 `handleUdp`. -/
def handleUdp (r : Run) (e : Nat) : Nat := after (failed r.server) e

/-- EventCatcher.cpp 91-115: `errno` after the handler. -/
def handler (r : Run) (e : Nat) : Nat :=
  match r.type with
  | .error c => c
  | .ok .other => e
  | .ok .stream => after r.note (handleTcp r e)
  | .ok .dgram => after r.note (handleUdp r e)

/-- Runs of the handler one after another. -/
def handlers : List Run → Nat → Nat
  | [], e => e
  | r :: rs, e => handlers rs (handler r e)

/-- What the function returns: `(result < 0) ? -errno : result`, the handler having run as in `rs` before `errno` is read.
`native`: the value of the native call, or its failure. -/
def report (native : Except Nat Nat) (rs : List Run) : Int :=
  match native with
  | .ok n => (n : Int)
  | .error c => -(handlers rs c : Int)

end Flame.Errno
