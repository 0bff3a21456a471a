import Verif.Own.Spec

/-!
# Named pipes (src/Streams/CommonFunctions.cpp, src/Streams/Posix/CommonFunctionsImpl.cpp)

The system's answers are parameters: every system call that may fail comes with its `errno` (a positive number) or `none` for success.
-/

namespace Flame.Fifo
open Flame.Own

def EEXIST : Int := 17
def EINVAL : Int := 22
/-- Os/Posix/Constants.hpp: OS_INVALID_DESCRIPTOR -/
def INVALID : Int := -1

/-- CommonFuncitons.hpp 16-28 `Descriptors::ResultValue`. -/
structure RV where
  fd : Int
  status : Int
  deriving DecidableEq, Repr

/-- CommonFuncitons.hpp 18-19: the default value. -/
def RV.dflt : RV := ⟨0, 0⟩

/-- CommonFuncitons.hpp 14-39 `Descriptors`. -/
structure Ds where
  reader : RV
  writer : RV
  deriving DecidableEq, Repr

/-- CommonFuncitons.hpp 30-31: the default value. -/
def Ds.dflt : Ds := ⟨.dflt, .dflt⟩

/-- Os/Types.hpp `ActionType`. -/
inductive Action where
  | reader | writer | bidirectional
  deriving DecidableEq, Repr

/-- CommonFunctionsImpl.cpp 21-28: `mknod`; an existing node is accepted. `some rv`: the function returns. -/
def makeNode (err : Option Int) : Option RV :=
  match err with
  | none => none
  | some e => if e ≠ EEXIST then some ⟨INVALID, -e⟩ else none

/-- CommonFunctionsImpl.cpp 44-54: `open`, with the descriptor it gives. -/
def opened (err : Option Int) (fd : Int) : RV :=
  match err with
  | some e => ⟨INVALID, -e⟩
  | none => ⟨fd, 0⟩

/-- CommonFunctionsImpl.cpp 18-55 `makeFifo`, once `open` has returned; `fd` is the new descriptor. The open mode is part of the interleaving model below. -/
def makeFifo (nodeErr openErr : Option Int) (fd : Int) (a : Action) : RV :=
  match makeNode nodeErr with
  | some rv => rv
  | none => match a with
    | .bidirectional => ⟨INVALID, -EINVAL⟩
    | _ => opened openErr fd

/-- CommonFunctionsImpl.cpp 57-72 `commonClose`; 88-96 `destroyNamedReader`, `destroyNamedWriter`.  The second component is the descriptor that `close` is called for. -/
def commonClose (closeErr : Option Int) (d : RV) : Int × Option Int :=
  if d.status = 0 then (match closeErr with | some e => -e | none => 0, some d.fd) else (d.status, none)

/-- CommonFunctions.cpp 118-130 `destroyNamedPipe`: the thread for the reader does nothing (58-72), its result is the status it was given. -/
def destroyNamedPipe (closeErr : Option Int) (d : Ds) : Ds × List Int :=
  let w := commonClose closeErr d.writer
  (⟨⟨INVALID, d.reader.status⟩, ⟨INVALID, w.1⟩⟩, w.2.toList)

/-- CommonFunctions.cpp 93-116 `makeNamedPipe` for one direction. -/
def makeNamedPipe (nodeErr openErr : Option Int) (fd : Int) : Action → Option Ds
  | .reader => some { Ds.dflt with reader := makeFifo nodeErr openErr fd .reader }
  | .writer => some { Ds.dflt with writer := makeFifo nodeErr openErr fd .writer }
  | .bidirectional => none

/-! ## makeNamedBidirectional (CommonFunctions.cpp 80-91): two threads

The writer's thread makes the node and opens it for writing; the caller makes the node, opens it for reading and waits for the thread.  Opening a FIFO for reading with
`O_NONBLOCK` returns at once; opening it for writing waits until somebody has it open for reading (if it is a FIFO).  The end of the thread object is the matter of C71. -/

/-- What the system answers to each of the calls. -/
structure Env where
  rNode : Option Int
  rOpen : Option Int
  wNode : Option Int
  wOpen : Option Int
  /-- somebody else has the pipe open for reading -/
  ext : Bool
  /-- the name denotes a FIFO (not, for example, an ordinary file that existed before) -/
  fifo : Bool
  rFd : Int
  wFd : Int

/-- Where a thread is. -/
inductive Pc where
  | start
  /-- `mknod` done, `open` next -/
  | node
  /-- finished with a result -/
  | done (rv : RV)
  deriving DecidableEq

structure St where
  main : Pc
  worker : Pc
  /-- the result of the whole function -/
  result : Option Ds

def St.init : St := ⟨.start, .start, none⟩

/-- The caller has the pipe open for reading. -/
def St.readerOpen (s : St) : Bool := match s.main with
  | .done rv => rv.status = 0
  | _ => false

/-- One step of one of the threads. -/
inductive Step (e : Env) : St → St → Prop where
  | mainNode {s} : s.main = .start → Step e s { s with main := match makeNode e.rNode with | some rv => .done rv | none => .node }
  | mainOpen {s} : s.main = .node → Step e s { s with main := .done (opened e.rOpen e.rFd) }
  | workNode {s} : s.worker = .start → Step e s { s with worker := match makeNode e.wNode with | some rv => .done rv | none => .node }
  /-- `open` for writing fails at once -/
  | workFail {s x} : s.worker = .node → e.wOpen = some x → Step e s { s with worker := .done (opened e.wOpen e.wFd) }
  /-- `open` for writing succeeds as soon as there is a reader -/
  | workOpen {s} : s.worker = .node → e.wOpen = none → (e.fifo = false ∨ e.ext = true ∨ s.readerOpen = true) →
      Step e s { s with worker := .done (opened e.wOpen e.wFd) }
  /-- `join` returns, the results are put together -/
  | join {s r w} : s.main = .done r → s.worker = .done w → s.result = none → Step e s { s with result := some ⟨r, w⟩ }

inductive Run (e : Env) : St → Prop where
  | start : Run e St.init
  | step {s s'} : Run e s → Step e s s' → Run e s'

end Flame.Fifo
