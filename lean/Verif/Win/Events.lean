import Verif.Own.Spec

/-!
# Network notifications on Windows

src/Os/Windows/Async/Network/EventCatcher.cpp 17-85, MessageDispatchThread.cpp (in the same directory) 33-62, 73-83,
161-248 (line numbers of that file).

A descriptor is registered with WSAAsyncSelect for a set of events; the system posts a window message per event, and a
thread takes the messages in order and puts an entry into one of five queues.

The system (as documented for WSAAsyncSelect): an event that was posted is not posted again before the function that
re-enables it is called — `accept` for FD_ACCEPT, `recv`/`recvfrom` for FD_READ; re-enabling posts at once if the
condition still holds, and so does registering.  Messages are handled first in, first out.
Simplifications: `accept` succeeds when a connection waits; FD_WRITE and FD_CONNECT messages come from the program's
environment (`signal`); the entry queues are unbounded; registering is not repeated for a descriptor.
-/

namespace Flame.WinEvents
open Flame.Own (upd)

/-- `NetworkBase::SocketType` of a descriptor (`SO_TYPE`), and the two other options that are inspected. -/
structure Sock where
  /-- `some true`: stream, `some false`: datagram, `none`: unknown -/
  stream : Option Bool
  /-- `isServer` (`SO_REUSEADDR`) -/
  reuse : Bool
  /-- `isListener` (`SO_ACCEPTCONN`) -/
  listening : Bool
  deriving DecidableEq, Repr

/-- MessageDispatchThread.hpp 16-24 -/
inductive Event where
  | accept | connect | read | write | close
  deriving DecidableEq, Repr

/-- A set of events. -/
structure Mask where
  accept : Bool
  connect : Bool
  read : Bool
  write : Bool
  close : Bool
  deriving DecidableEq, Repr

def Mask.has (m : Mask) : Event → Bool
  | .accept => m.accept
  | .connect => m.connect
  | .read => m.read
  | .write => m.write
  | .close => m.close

/-- `Event::READ | Event::WRITE` -/
def readWrite : Mask := ⟨false, false, true, true, false⟩
/-- `Event::ACCEPT` -/
def acceptOnly : Mask := ⟨true, false, false, false, false⟩
/-- `Event::UNKNOWN`, −1: every bit is set -/
def everything : Mask := ⟨true, true, true, true, true⟩

/-- EventCatcher.cpp 36-62: the events asked for.  Line 52, `if (control.isServer)`, tests a function pointer, which is
never null. -/
def request (k : Sock) : Mask :=
  match k.stream with
  | some false => readWrite
  | some true => if k.listening then acceptOnly else
      let isServerPointer := true
      if isServerPointer then readWrite else { readWrite with connect := true }
  | none => everything

/-- What is put into the queues. -/
inductive Entry where
  | udpServer (fd : Nat)
  | udpClient (fd : Nat)
  | tcpServer (fd : Nat)
  | tcpClient (fd : Nat)
  /-- connection number `k` of listener `fd` -/
  | accepted (fd k : Nat)
  deriving DecidableEq, Repr

/-- A window message `Message::SOCKET`. -/
structure Msg where
  fd : Nat
  event : Event
  /-- `WSAGETSELECTERROR(param) != 0` -/
  error : Bool
  deriving DecidableEq, Repr

structure St where
  socks : Nat → Sock
  /-- what is registered with WSAAsyncSelect -/
  mask : Nat → Option Mask
  /-- connections made to a listener, connections taken from it -/
  made : Nat → Nat
  taken : Nat → Nat
  /-- units of data waiting on a descriptor -/
  unread : Nat → Nat
  /-- FD_ACCEPT, FD_READ was posted and not yet re-enabled -/
  accPosted : Nat → Bool
  rdPosted : Nat → Bool
  /-- the message queue of the thread, oldest first -/
  queue : List Msg
  /-- entries pushed, newest first -/
  entries : List Entry
  /-- calls of the notificator -/
  notified : Nat
  /-- history: an entry for the descriptor was pushed since data was last received from it -/
  told : Nat → Bool

def init (socks : Nat → Sock) : St :=
  ⟨socks, fun _ => none, fun _ => 0, fun _ => 0, fun _ => 0, fun _ => false, fun _ => false, [], [], 0, fun _ => false⟩

/-- The system posts FD_ACCEPT if it is wanted, not posted already, and a connection waits. -/
def postAccept (s : St) (fd : Nat) : St :=
  if (s.mask fd).any (·.accept) ∧ s.accPosted fd = false ∧ s.taken fd < s.made fd then
    { s with queue := s.queue ++ [⟨fd, .accept, false⟩], accPosted := upd s.accPosted fd true }
  else s

/-- The system posts FD_READ if it is wanted, not posted already, and data waits. -/
def postRead (s : St) (fd : Nat) : St :=
  if (s.mask fd).any (·.read) ∧ s.rdPosted fd = false ∧ 0 < s.unread fd then
    { s with queue := s.queue ++ [⟨fd, .read, false⟩], rdPosted := upd s.rdPosted fd true }
  else s

/-- MessageDispatchThread.cpp 193-213 -/
def handleUdp (s : St) (fd : Nat) (e : Event) : St :=
  match e with
  | .read | .write =>
      if (s.socks fd).reuse then { s with entries := .udpServer fd :: s.entries, told := upd s.told fd true }
      else { s with entries := .udpClient fd :: s.entries, told := upd s.told fd true }
  | _ => s

/-- MessageDispatchThread.cpp 215-247.  `accept` takes the oldest waiting connection and re-enables FD_ACCEPT; it fails
when none waits. -/
def handleTcp (s : St) (fd : Nat) (e : Event) : St :=
  match e with
  | .accept =>
      if s.taken fd < s.made fd then
        postAccept { s with entries := .accepted fd (s.taken fd) :: s.entries,
                            taken := upd s.taken fd (s.taken fd + 1), accPosted := upd s.accPosted fd false } fd
      else { s with accPosted := upd s.accPosted fd false }
  | .read | .write =>
      if (s.socks fd).reuse then { s with entries := .tcpServer fd :: s.entries, told := upd s.told fd true }
      else { s with entries := .tcpClient fd :: s.entries, told := upd s.told fd true }
  | _ => s

/-- MessageDispatchThread.cpp 161-191: `action` for a message that is `Message::SOCKET`. -/
def action (s : St) (m : Msg) : St :=
  if m.error then s
  else
    let s := match (s.socks m.fd).stream with
      | some false => handleUdp s m.fd m.event
      | some true => handleTcp s m.fd m.event
      | none => s
    { s with notified := s.notified + 1 }

inductive Op where
  /-- `enable(fd)`, WSAAsyncSelect succeeds -/
  | enable (fd : Nat)
  /-- a peer connects to listener `fd` -/
  | connect (fd : Nat)
  /-- a unit of data arrives on `fd` -/
  | data (fd : Nat)
  /-- the program receives a unit of data from `fd` -/
  | recv (fd : Nat)
  /-- any other message the system posts -/
  | signal (m : Msg)
  /-- the thread handles the oldest message -/
  | dispatch
  deriving DecidableEq, Repr

def step (s : St) : Op → St
  -- EventCatcher.cpp 34-74
  | .enable fd => postRead (postAccept { s with mask := upd s.mask fd (some (request (s.socks fd))) } fd) fd
  | .connect fd => postAccept { s with made := upd s.made fd (s.made fd + 1) } fd
  | .data fd => postRead { s with unread := upd s.unread fd (s.unread fd + 1) } fd
  | .recv fd =>
      postRead { s with unread := upd s.unread fd (s.unread fd - 1), rdPosted := upd s.rdPosted fd false, told := upd s.told fd false } fd
  | .signal m => { s with queue := s.queue ++ [m] }
  -- MessageDispatchThread.cpp 46-59
  | .dispatch => match s.queue with
    | m :: q => action { s with queue := q } m
    | [] => s

def run (s : St) : List Op → St
  | [] => s
  | o :: os => run (step s o) os

/-! ## The statuses of `enable` and `disable`, and the end of the thread -/

/-- EventCatcher.cpp 64-73: `window`: the window exists; `select`: the error of WSAAsyncSelect, if it fails. -/
def enableStatus (window : Bool) (select : Option Nat) : Int :=
  if !window then -1
  else match select with
    | some e => -(e : Int)
    | none => 0

/-- EventCatcher.cpp 76-85. -/
def disableStatus (window : Bool) (select : Option Nat) : Int :=
  if !window then -1
  else match select with
    | some e => -(e : Int)
    | none => 0

/-- What GetMessage returns to the thread. -/
inductive Got where
  | socket
  | finish
  /-- WM_QUIT: GetMessage returns 0 -/
  | quit
  /-- GetMessage returns −1 -/
  | fail
  deriving DecidableEq, Repr

/-- MessageDispatchThread.cpp 42-59: the loop of `body`, given what GetMessage returns one after the other.  `some n`:
the loop ends, `n` messages were given to DispatchMessage; `none`: it waits for another message. -/
def loop : List Got → Nat → Option Nat
  | [], _ => none
  | .socket :: l, n => loop l (n + 1)
  | .finish :: _, n => some n
  | .quit :: _, n => some (n + 1)
  | .fail :: _, n => some n

/-- What the destructor of EventCatcher posts to the thread (EventCatcher.cpp 23-30, MessageDispatchThread.cpp 78-83):
nothing unless the window exists. -/
def posted (window : Bool) : List Got := if window then [.finish] else []

end Flame.WinEvents
