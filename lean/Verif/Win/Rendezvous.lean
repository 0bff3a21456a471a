import Verif.Own.Spec

/-!
# Making both ends of a named pipe on Windows

src/Streams/CommonFunctions.cpp 80-91 (makeNamedBidirectional) on src/Streams/Windows/CommonFunctionsImpl.cpp 21-69: the calling
thread makes the reader's end (CreateNamedPipe, ConnectNamedPipe, handle 0), a second thread the writer's end (CreateFile,
handle 1).  One system call per step, in any order the scheduler chooses; another process may connect, too.

The system: CreateFile finds the pipe from its creation on, even before ConnectNamedPipe; the only instance is busy once somebody
is connected (ERROR_PIPE_BUSY 231, without a pipe ERROR_FILE_NOT_FOUND 2); ConnectNamedPipe waits until somebody is connected,
and returns FALSE with ERROR_PIPE_CONNECTED (535) if somebody is already.  System calls may fail for other reasons.
Simplifications: the second thread can be started; a peer that connected stays connected.
-/

namespace Flame.WinFifo
open Flame.Own

inductive Srv where
  | start
  | created
  | waiting
  | ok
  | failed (e : Nat)
  deriving DecidableEq, Repr

inductive Cli where
  | start
  | ok
  | failed (e : Nat)
  deriving DecidableEq, Repr

inductive Peer where
  | ours
  | foreign
  deriving DecidableEq, Repr

structure St where
  srv : Srv
  cli : Cli
  /-- who is connected to the server's end -/
  peer : Option Peer
  /-- … since before ConnectNamedPipe was called -/
  early : Bool
  log : List Ev

def init : St := ⟨.start, .start, none, false, []⟩

inductive Act where
  /-- CreateNamedPipe -/
  | create
  | createFail (e : Nat)
  /-- ConnectNamedPipe -/
  | connect
  | connectFail (e : Nat)
  /-- CreateFile by the second thread -/
  | client
  /-- another process connects -/
  | foreign
  deriving DecidableEq, Repr

/-- Somebody connects: a waiting server's ConnectNamedPipe returns. -/
def join (s : St) (p : Peer) : St :=
  { s with peer := some p, early := s.srv == .created, srv := if s.srv = .waiting then .ok else s.srv }

/-- The pipe can be connected to. -/
def free (s : St) : Bool := (s.srv == .created || s.srv == .waiting) && s.peer.isNone

/-- One step; `none`: impossible now. -/
def step (s : St) : Act → Option St
  -- CommonFunctionsImpl.cpp 44-53
  | .create => if s.srv = .start then some { s with srv := .created, log := .made 0 :: s.log } else none
  -- 55-59
  | .createFail e => if s.srv = .start then some { s with srv := .failed e } else none
  -- 61-68
  | .connect =>
      if s.srv = .created then
        if s.peer = none then some { s with srv := .waiting }
        else some { s with srv := .failed 535, log := .closed 0 :: s.log }
      else none
  -- 61-66
  | .connectFail e =>
      if s.srv = .created ∨ s.srv = .waiting then some { s with srv := .failed e, log := .closed 0 :: s.log } else none
  -- 23-39
  | .client =>
      if s.cli = .start then
        if free s then some { join s .ours with cli := .ok, log := .made 1 :: s.log }
        else match s.srv with
          | .created | .waiting | .ok => some { s with cli := .failed 231 }
          | _ => some { s with cli := .failed 2 }
      else none
  | .foreign => if free s then some (join s .foreign) else none

def run : St → List Act → Option St
  | s, [] => some s
  | s, a :: l => (step s a).bind fun s' => run s' l

/-- The call has returned. -/
def Finished (s : St) : Prop := (s.srv = .ok ∨ ∃ e, s.srv = .failed e) ∧ s.cli ≠ .start

end Flame.WinFifo
