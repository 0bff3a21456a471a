import Verif.Own.Spec

/-!
# Network notifications — src/Os/Posix/Async/Network/EventCatcher.cpp 49-184

A descriptor registered with the `Registrar` raises `SIGPOLL` whenever something happens to it; the handler finds out what kind of socket it
is and puts an entry into one of five queues.

The system: `SIGPOLL` is an ordinary signal, so at most one is waiting at a time; raising it while it is waiting does nothing (POSIX).  Its
`si_fd` is the descriptor that raised it.  Which thread runs the handler and the queue's lock are the subject of `Conc/Signal.lean` (C38);
here the handler runs at once and the queues are unbounded lists (bounded ones: C37).
-/

namespace Flame.Events
open Flame.Own (upd upd_self upd_ne)

/-- What a descriptor is, as the system knows it: `SO_TYPE`, `SO_REUSEADDR`, `SO_ACCEPTCONN`. -/
structure Sock where
  /-- `some true`: `SOCK_STREAM`, `some false`: `SOCK_DGRAM`, `none`: anything else -/
  stream : Option Bool
  reuse : Bool
  listening : Bool
  deriving DecidableEq, Repr

/-- What the handler puts into the queues. -/
inductive Entry where
  | udpServer (fd : Nat)
  | udpClient (fd : Nat)
  | tcpServer (fd : Nat)
  | tcpClient (fd : Nat)
  /-- connection number `k` of listener `fd` -/
  | accepted (fd k : Nat)
  deriving DecidableEq, Repr

structure St where
  socks : Nat → Sock
  /-- connections made to a listener so far -/
  made : Nat → Nat
  /-- connections taken from it so far -/
  taken : Nat → Nat
  /-- the waiting signal -/
  pending : Option Nat
  /-- entries pushed, newest first -/
  entries : List Entry
  /-- calls of the notificator -/
  notified : Nat

def init (socks : Nat → Sock) : St := ⟨socks, fun _ => 0, fun _ => 0, none, [], 0⟩

/-- 117-144 -/
def handleTcp (s : St) (fd : Nat) : St :=
  if !(s.socks fd).reuse then { s with entries := .tcpClient fd :: s.entries }
  else if !(s.socks fd).listening then { s with entries := .tcpServer fd :: s.entries }
  -- `accept` fails when nothing waits (the descriptor is non-blocking)
  else if s.taken fd < s.made fd then
    { s with entries := .accepted fd (s.taken fd) :: s.entries, taken := upd s.taken fd (s.taken fd + 1) }
  else s

/-- 146-152 -/
def handleUdp (s : St) (fd : Nat) : St :=
  if (s.socks fd).reuse then { s with entries := .udpServer fd :: s.entries }
  else { s with entries := .udpClient fd :: s.entries }

/-- `EventCatcher::get().notify()` with a notificator set. -/
def notify (s : St) : St := { s with notified := s.notified + 1 }

/-- 91-115 -/
def signalHandler (s : St) (fd : Nat) : St :=
  match (s.socks fd).stream with
  | some true => notify (handleTcp s fd)
  | some false => notify (handleUdp s fd)
  | none => s

/-- The system raises the signal for `fd`. -/
def raise (s : St) (fd : Nat) : St :=
  match s.pending with
  | none => { s with pending := some fd }
  | some _ => s

inductive Op where
  /-- a peer connects to listener `fd` -/
  | connect (fd : Nat)
  /-- data arrives on `fd` -/
  | data (fd : Nat)
  /-- the handler runs, if a signal is waiting -/
  | deliver
  deriving DecidableEq, Repr

def step (s : St) : Op → St
  | .connect fd => raise { s with made := upd s.made fd (s.made fd + 1) } fd
  | .data fd => raise s fd
  | .deliver => match s.pending with
    | some fd => signalHandler { s with pending := none } fd
    | none => s

def run (s : St) : List Op → St
  | [] => s
  | o :: os => run (step s o) os

/-! ## Descriptor flags -/

/-- The file status flags and the signal settings of a descriptor. -/
structure Desc where
  async : Bool
  nonblock : Bool
  /-- all other flags -/
  others : Nat
  /-- `F_SETOWN` -/
  owner : Nat
  /-- `F_SETSIG` -/
  sig : Nat
  deriving DecidableEq, Repr

/-- Outcomes of the three `fcntl` calls: `none` — success, `some c` — failure with code `c`. -/
structure Fcntl where
  setfl : Option Nat
  setown : Option Nat
  setsig : Option Nat

def SIGPOLL : Nat := 29

/-- Three settings one after the other, stopping at the first failure (154-168, 170-184).  Simplification: `F_GETFL` succeeds. -/
def configure (k : Fcntl) (fl own sg : Desc → Desc) (d : Desc) : Int × Desc :=
  match k.setfl with
  | some c => (-(c : Int), d)
  | none => match k.setown with
    | some c => (-(c : Int), fl d)
    | none => match k.setsig with
      | some c => (-(c : Int), own (fl d))
      | none => (0, sg (own (fl d)))

/-- 154-168: `enableSignal`. -/
def enableSignal (pid : Nat) (k : Fcntl) (d : Desc) : Int × Desc :=
  configure k (fun d => { d with async := true, nonblock := true }) (fun d => { d with owner := pid })
    (fun d => { d with sig := SIGPOLL }) d

/-- 170-184: `disableSignal`. -/
def disableSignal (k : Fcntl) (d : Desc) : Int × Desc :=
  configure k (fun d => { d with async := false, nonblock := false }) (fun d => { d with owner := 0 })
    (fun d => { d with sig := 0 }) d

/-- 49-63: `enable`, `disable`: `status` is that of the catcher. -/
def enable (status : Int) (pid : Nat) (k : Fcntl) (d : Desc) : Int × Desc :=
  if status ≠ 0 then (status, d) else enableSignal pid k d

def disable (status : Int) (k : Fcntl) (d : Desc) : Int × Desc :=
  if status ≠ 0 then (status, d) else disableSignal k d

end Flame.Events
