import Verif.Own.Spec

/-!
# Who closes a pipe's handle on Windows

src/Streams/Windows/{FileStreamReader,FileStreamWriter,NamedPipeReader,NamedPipeWriter,NamedPipeStream,PipeStream}.cpp with
destroyNamedReader and destroyNamedWriter of CommonFunctionsImpl.cpp.

Handles are numbered by order of opening; a descriptor is `some r` or `os::INVALID_DESCRIPTOR` (`none`).  A `bool` member is
`none` while it was never written; reading it then is undefined.
Simplifications: CloseHandle of an open handle succeeds;
DisconnectNamedPipe succeeds exactly for open handles of the server's end of a named pipe; names are not modelled.  The system reuses the values of closed
handles, so what is done to such a value may be done to any other handle: it is recorded as `closedForeign`.
-/

namespace Flame.WinPipe
open Flame.Own

inductive Kind where
  | reader
  | writer
  deriving DecidableEq, Repr

/-- FileStreamReader.hpp 54-55, NamedPipeWriter.hpp 60-61 (`del` is `delPipe`; a reader has none, its `del` is not used). -/
structure Obj where
  kind : Kind
  fd : Option Nat
  own : Option Bool
  del : Option Bool
  deriving DecidableEq, Repr

/-- CloseHandle -/
def closeHandle (fd : Option Nat) (log : List Ev) : List Ev := match fd with
  | some r => if Live r log then .closed r :: log else .closedForeign :: log
  | none => .closedNothing :: log

/-- CommonFunctionsImpl.cpp 85-98: `destroyNamedReader`. -/
def destroyNamedReader (server : Nat → Bool) (fd : Option Nat) (log : List Ev) : List Ev := match fd with
  | some r => if ¬ Live r log then .closedForeign :: log else if server r then closeHandle fd log else log
  | none => log

/-- CommonFunctionsImpl.cpp 100-108: `destroyNamedWriter`. -/
def destroyNamedWriter (fd : Option Nat) (log : List Ev) : List Ev := closeHandle fd log

/-- FileStreamReader.cpp 28-31, 87-90, FileStreamWriter.cpp likewise: `if (own && fd != INVALID) CloseHandle(fd)`. -/
def closeOwned (o : Obj) (log : List Ev) : Res (List Ev) := match o.own with
  | none => .ub
  | some false => .ok log
  | some true => match o.fd with
    | some _ => .ok (closeHandle o.fd log)
    | none => .ok log

/-- FileStreamReader.cpp 84-93: `setFileDescriptor`. -/
def set (o : Obj) (fd : Option Nat) (own : Bool) (log : List Ev) : Res (Obj × List Ev) :=
  (closeOwned o log).bind fun log => .ok ({ o with fd := fd, own := some own }, log)

/-- NamedPipeReader.cpp 23-28, NamedPipeWriter.cpp 25-33, then the base's destructor. -/
def destroy (server : Nat → Bool) (o : Obj) (log : List Ev) : Res (List Ev) := match o.kind with
  | .reader =>
      let log := destroyNamedReader server o.fd log
      (set { o with own := some false } none false log).bind fun p => closeOwned p.1 p.2
  | .writer => match o.del with
    | none => .ub
    | some true =>
        let log := destroyNamedWriter o.fd log
        (set { o with own := some false } none false log).bind fun p => closeOwned p.1 p.2
    | some false => closeOwned o log

structure St where
  vars : Nat → Option Obj
  /-- handles that are the server's end of a named pipe -/
  server : Nat → Bool
  next : Nat
  log : List Ev

def start : St := ⟨fun _ => none, fun _ => false, 0, []⟩

inductive Op where
  | default (k : Kind) (i : Nat)
  /-- construction from a name; the system calls succeed -/
  | named (k : Kind) (i : Nat) (del : Bool)
  /-- … fail -/
  | namedFail (k : Kind) (i : Nat) (del : Bool)
  | moveCtor (i j : Nat)
  | moveAssign (i j : Nat)
  | open (i : Nat) (del : Bool)
  | openFail (i : Nat)
  /-- `setFileDescriptor` with a descriptor of the program -/
  | set (i : Nat) (fd : Option Nat) (own : Bool)
  | get (i : Nat) (keep : Bool)
  | drop (i : Nat)
  deriving DecidableEq, Repr

def step (s : St) : Op → Res St
  -- NamedPipeReader.cpp 12-13, NamedPipeWriter.cpp 12-13, FileStreamReader.cpp 11-12
  | .default k i => .ok { s with vars := upd s.vars i (some ⟨k, none, none, none⟩) }
  -- NamedPipeReader.cpp 19-21, NamedPipeWriter.cpp 21-23
  | .named k i del =>
      .ok ⟨upd s.vars i (some ⟨k, some s.next, some true, some del⟩), upd s.server s.next (k == .reader), s.next + 1, .made s.next :: s.log⟩
  | .namedFail k i del => .ok { s with vars := upd s.vars i (some ⟨k, none, some true, some del⟩) }
  -- NamedPipeReader.cpp 15-17, NamedPipeWriter.cpp 15-19, FileStreamReader.cpp 14-19
  | .moveCtor i j => match s.vars j with
    | some ⟨k, fd, some own, del⟩ =>
        if k = .writer ∧ del = none then .ub
        else .ok { s with vars := upd (upd s.vars i (some ⟨k, fd, some own, del⟩)) j (some ⟨k, none, some false, some false⟩) }
    | _ => .ub
  -- NamedPipeReader.cpp 30-34, NamedPipeWriter.cpp 35-43, FileStreamReader.cpp 34-43: the old handle is not closed
  | .moveAssign i j => match s.vars i, s.vars j with
    | some _, some ⟨k, fd, some own, del⟩ =>
        if k = .writer ∧ del = none then .ub
        else .ok { s with vars := upd (upd s.vars i (some ⟨k, fd, some own, del⟩)) j (some ⟨k, none, some false, some false⟩) }
    | _, _ => .ub
  -- NamedPipeReader.cpp 49-60, NamedPipeWriter.cpp 57-70
  | .open i del => match s.vars i with
    | some o => match set o none false s.log with
      | .ok (o, log) => match set o (some s.next) true log with
        | .ok (o, log) =>
          .ok ⟨upd s.vars i (some { o with del := some del }), upd s.server s.next (o.kind == .reader), s.next + 1, .made s.next :: log⟩
        | .ub => .ub
        | .loop => .loop
      | .ub => .ub
      | .loop => .loop
    | none => .ub
  | .openFail i => match s.vars i with
    | some o => match set o none false s.log with
      | .ok (o, log) => .ok { s with vars := upd s.vars i (some o), log := log }
      | .ub => .ub
      | .loop => .loop
    | none => .ub
  | .set i fd own => match s.vars i with
    | some o => match set o fd own s.log with
      | .ok (o, log) => .ok { s with vars := upd s.vars i (some o), log := log }
      | .ub => .ub
      | .loop => .loop
    | none => .ub
  -- FileStreamReader.cpp 95-100
  | .get i keep => match s.vars i with
    | some o => .ok { s with vars := upd s.vars i (some { o with own := some keep }) }
    | none => .ub
  | .drop i => match s.vars i with
    | some o => match destroy s.server o s.log with
      | .ok log => .ok { s with vars := upd s.vars i none, log := log }
      | .ub => .ub
      | .loop => .loop
    | none => .ub

/-- The handle an object is responsible for. -/
def held : Option Obj → Option Nat
  | some ⟨_, fd, some true, _⟩ => fd
  | _ => none

def owner (s : St) (i : Nat) : Option Nat := held (s.vars i)

/-- Objects made from names, moved and reopened, and nothing else: variables are declared before use and only once, only
objects of the same kind are assigned, an object that holds a handle is not assigned to, none to itself. -/
def careful (s : St) : Op → Prop
  | .named _ i _ | .namedFail _ i _ => s.vars i = none
  | .moveCtor i j => s.vars i = none ∧ s.vars j ≠ none
  | .moveAssign i j => s.vars i ≠ none ∧ s.vars j ≠ none ∧ (s.vars i).map (·.kind) = (s.vars j).map (·.kind) ∧ owner s i = none ∧ i ≠ j
  | .open i _ | .openFail i | .drop i => s.vars i ≠ none
  | _ => False

instance (s : St) (o : Op) : Decidable (careful s o) := by cases o <;> unfold careful <;> infer_instance

/-! ## The stream with two ends -/

/-- NamedPipeStream.hpp 82-83 -/
structure Stream where
  writer : Obj
  reader : Obj
  deriving DecidableEq, Repr

/-- NamedPipeStream.cpp 103-115: the conditions `fd != … || fd != …` compare with the same value twice, both spelt
differently: INVALID_HANDLE_VALUE and INVALID_DESCRIPTOR are −1, so an invalid descriptor is not closed. -/
def Stream.deinit (s : Stream) (log : List Ev) : Stream × List Ev :=
  let log := if s.reader.fd = none then log else closeHandle s.reader.fd log
  let log := if s.writer.fd = none then log else closeHandle s.writer.fd log
  (⟨{ s.writer with own := some false }, { s.reader with own := some false }⟩, log)

/-- NamedPipeStream.cpp 26-29, then the members' destructors, the reader's first. -/
def Stream.destroy (server : Nat → Bool) (s : Stream) (log : List Ev) : Res (List Ev) :=
  let (s, log) := s.deinit log
  (WinPipe.destroy server s.reader log).bind fun log => WinPipe.destroy server s.writer log

/-- NamedPipeStream.cpp 66-71 -/
def Stream.set (s : Stream) (fd : Option Nat) (own : Bool) (log : List Ev) : Res (Stream × List Ev) :=
  (WinPipe.set s.writer fd own log).bind fun (w, log) =>
  (WinPipe.set s.reader fd false log).bind fun (r, log) => .ok (⟨w, r⟩, log)

/-- NamedPipeStream.cpp 83-96: `open`, given the descriptors that makeNamedPipe returns (`none`: invalid); `e` is the last
error.  The status and the stream afterwards. -/
def Stream.open (s : Stream) (r w : Option Nat) (e : Int) (log : List Ev) : Res (Int × Stream × List Ev) :=
  let (s, log) := s.deinit log
  if r = none ∨ w = none then .ok (e, s, log)
  else
    (WinPipe.set s.writer w true log).bind fun (w', log) =>
    (WinPipe.set s.reader r true log).bind fun (r', log) => .ok (0, ⟨w', r'⟩, log)

/-! ## The unnamed pipe -/

/-- PipeStream.hpp 85-87; `status` is `none` while it was never written. -/
structure Pipe where
  status : Option Int
  reader : Obj
  writer : Obj
  deriving DecidableEq, Repr

/-- PipeStream.cpp 19-32: the constructor: the members are default constructed (`own` not written), CreatePipe returns
nonzero for success and then gives two handles.  `ind` is what an unwritten `bool` reads as, `none`: undefined. -/
def pipeCtor (ind : Option Bool) (created : Option (Nat × Nat)) (log : List Ev) : Res (Pipe × List Ev) :=
  let reader : Obj := ⟨.reader, none, ind, none⟩
  let writer : Obj := ⟨.writer, none, ind, none⟩
  match created with
  | some (r, w) =>
      (set reader (some r) true log).bind fun (reader, log) =>
      (set writer (some w) true log).bind fun (writer, log) => .ok (⟨some 1, reader, writer⟩, log)
  | none => .ok (⟨some 0, reader, writer⟩, log)

/-- PipeStream.cpp 34-37 with FileStreamReader.cpp 14-19: `status` is not initialised.  The new pipe and the old one. -/
def pipeMove (p : Pipe) : Res (Pipe × Pipe) := match p.reader.own, p.writer.own with
  | some _, some _ => .ok (⟨none, p.reader, p.writer⟩,
      ⟨p.status, { p.reader with fd := none, own := some false }, { p.writer with fd := none, own := some false }⟩)
  | _, _ => .ub

/-- PipeStream.cpp 46-52 with FileStreamReader.cpp 34-43: what the target held is not closed. -/
def pipeAssign (_p q : Pipe) : Res (Pipe × Pipe) := match q.reader.own, q.writer.own with
  | some _, some _ => .ok (⟨some 0, q.reader, q.writer⟩,
      ⟨q.status, { q.reader with fd := none, own := some false }, { q.writer with fd := none, own := some false }⟩)
  | _, _ => .ub

/-- PipeStream.cpp 74-77 -/
def pipeStatus (p : Pipe) : Res Int := match p.status with
  | some s => .ok s
  | none => .ub

/-- The members' destructors (FileStreamReader.cpp 26-32), the writer's first. -/
def pipeDestroy (p : Pipe) (log : List Ev) : Res (List Ev) := (closeOwned p.writer log).bind (closeOwned p.reader)

end Flame.WinPipe
