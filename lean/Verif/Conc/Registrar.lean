import Verif.Conc.Queue

/-!
# `Registrar` — src/Os/Async/Network/Registrar.cpp

Five queues, one per socket kind (EventCatcherBase's `queues()`); every queue operation is `QueuedArray`'s, run to its end
(`Obj.exec`; that this is what concurrent callers see is C36).  `enable`/`disable` (`fcntl` calls) touch no queue and are
not modelled; allocation succeeds.
-/

namespace Flame.Conc

namespace Registrar
open Queue

inductive Kind where
  | udpServer
  | udpClient
  | accepted
  | tcpServer
  | tcpClient
  deriving DecidableEq

/-- What is queued: a descriptor; for accepted connections (AcceptedConnection.hpp 13-30) the pair of the server's and the
client's descriptor. -/
abbrev Val : Kind → Type
  | .accepted => Int × Int
  | _ => Int

instance (k : Kind) : DecidableEq (Val k) := by
  cases k <;> simp only [Val] <;> infer_instance

/-- `SOCKET_INVALID.descriptor` (Posix/Constants.hpp 25-28: −1); the default `AcceptedConnection` (28-29). -/
def invalid : (k : Kind) → Val k
  | .accepted => (-1, -1)
  | .udpServer => (-1 : Int)
  | .udpClient => (-1 : Int)
  | .tcpServer => (-1 : Int)
  | .tcpClient => (-1 : Int)

/-- The loop conditions of `clear` (Registrar.cpp 194-198): `!= SOCKET_INVALID.descriptor`;
`AcceptedConnection::operator bool` (AcceptedConnection.hpp 22-26). -/
def valid : (k : Kind) → Val k → Bool
  | .accepted, v => v.1 != -1 && v.2 != -1
  | .udpServer, v => (show Int from v) != -1
  | .udpClient, v => (show Int from v) != -1
  | .tcpServer, v => (show Int from v) != -1
  | .tcpClient, v => (show Int from v) != -1

abbrev Queues := (k : Kind) → Q (Val k)

/-- EventCatcherBase: the queues at program start. -/
def start : Queues := fun _ => Q.fresh

def setQ (r : Queues) (k : Kind) (q : Q (Val k)) : Queues := fun j => if h : j = k then h ▸ q else r j

/-- A call of one of the queue's methods; no method makes more than eight accesses. -/
def call (cap : Kind → Nat) (r : Queues) (k : Kind) (o : Queue.Op (Val k)) : Res (Queues × Queue.Ret (Val k)) :=
  match (Queue.obj (cap k)).exec 8 ((Queue.obj (cap k)).enter o) (r k) with
  | .ok (q, x) => .ok (setQ r k q, x)
  | .ub => .ub
  | .loop => .loop

/-- Registrar.cpp 22-60: `add(socket)`: `if (!queue) queue.init(...)`. -/
def add (cap : Kind → Nat) (r : Queues) (k : Kind) : Res Queues :=
  match call cap r k .test with
  | .ok (r', .bool false) => match call cap r' k (.init (invalid k)) with
    | .ok (r'', _) => .ok r''
    | .ub => .ub
    | .loop => .loop
  | .ok (r', _) => .ok r'
  | .ub => .ub
  | .loop => .loop

/-- Registrar.cpp 153-176: `push…(value)`. -/
def push (cap : Kind → Nat) (r : Queues) (k : Kind) (v : Val k) : Res (Queues × Bool) :=
  match call cap r k (.push v) with
  | .ok (r', .bool b) => .ok (r', b)
  | .ok (r', .value _) => .ok (r', true)
  | .ub => .ub
  | .loop => .loop

/-- Registrar.cpp 91-149: `pop…()`; the invalid value when the queue is empty. -/
def pop (cap : Kind → Nat) (r : Queues) (k : Kind) : Res (Queues × Val k) :=
  match call cap r k (.pop (invalid k)) with
  | .ok (r', .value v) => .ok (r', v)
  | .ok (r', .bool _) => .ok (r', invalid k)
  | .ub => .ub
  | .loop => .loop

/-- EventCatcher.cpp 117-152 (`handleTcp`, `handleUdp`): an event pushes and ignores the result. -/
def event (cap : Kind → Nat) (r : Queues) (k : Kind) (v : Val k) : Res Queues :=
  match push cap r k v with
  | .ok (r', _) => .ok r'
  | .ub => .ub
  | .loop => .loop

/-- Registrar.cpp 194-198: one of the loops of `clear`. -/
def drain (cap : Kind → Nat) (k : Kind) : Nat → Queues → Res Queues
  | 0, _ => .loop
  | f + 1, r => match pop cap r k with
    | .ok (r', v) => if valid k v then drain cap k f r' else .ok r'
    | .ub => .ub
    | .loop => .loop

/-- Registrar.cpp 192-199: `clear`. -/
def clear (cap : Kind → Nat) (f : Nat) (r : Queues) : Res Queues := do
  let r ← drain cap .udpServer f r
  let r ← drain cap .udpClient f r
  let r ← drain cap .accepted f r
  let r ← drain cap .tcpServer f r
  drain cap .tcpClient f r

/-- What a program, and the network, can do. -/
inductive Op where
  | add (k : Kind)
  | push (k : Kind) (v : Val k)
  | event (k : Kind) (v : Val k)
  | pop (k : Kind)
  | clear

/-- What it gets back. -/
inductive Out where
  | nothing
  | pushed (b : Bool)
  | popped (k : Kind) (v : Val k)
  deriving DecidableEq

def step (cap : Kind → Nat) (r : Queues) : Op → Res (Queues × Out)
  | .add k => (add cap r k).bind fun r' => .ok (r', .nothing)
  | .push k v => (push cap r k v).bind fun p => .ok (p.1, .pushed p.2)
  | .event k v => (event cap r k v).bind fun r' => .ok (r', .nothing)
  | .pop k => (pop cap r k).bind fun p => .ok (p.1, .popped k p.2)
  | .clear => (clear cap ((r .udpServer).count + (r .udpClient).count + (r .accepted).count + (r .tcpServer).count +
      (r .tcpClient).count + 1) r).bind fun r' => .ok (r', .nothing)

def run (cap : Kind → Nat) : Queues → List Op → Res (Queues × List Out)
  | r, [] => .ok (r, [])
  | r, o :: os => (step cap r o).bind fun p => (run cap p.1 os).bind fun q => .ok (q.1, p.2 :: q.2)

end Registrar
end Flame.Conc
