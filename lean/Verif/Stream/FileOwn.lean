import Verif.Own.Spec

/-!
# Who closes a stream's descriptor

src/Streams/Posix/FileStreamReader.cpp 12-44, 78-94; src/Streams/Posix/FileStreamWriter.cpp 12-33, 73-100 (the two classes are
identical here); src/Streams/Posix/NamedPipeReader.cpp, NamedPipeWriter.cpp, NamedPipeStream.cpp.

Open files are numbered by order of opening; a descriptor is `some r` or `os::INVALID_DESCRIPTOR` (`none`).
Simplification: `::close` of an open descriptor succeeds.  The system reuses the number of a closed file, so closing a number whose file is closed already may close any
other file: it is recorded as `closedForeign`.
`caller r` says that the program outside the streams is responsible for closing file `r`.
-/

namespace Flame.Own.FileS

/-- FileStreamReader.hpp 54-55. -/
structure Var where
  fd : Option Nat
  own : Bool
  deriving DecidableEq, Repr

structure St where
  vars : Nat → Option Var
  caller : Nat → Bool
  next : Nat
  log : List Ev

def start : St := ⟨fun _ => none, fun _ => false, 0, []⟩

/-- `::close(fd)` under `own && fd != INVALID_DESCRIPTOR` (FileStreamReader.cpp 29-32, 81-84). -/
def release (v : Var) (log : List Ev) : List Ev := match v.own, v.fd with
  | true, some r => if Live r log then .closed r :: log else .closedForeign :: log
  | _, _ => log

inductive Op where
  /-- the program opens a file -/
  | openFile
  /-- the program closes a file itself -/
  | closeFile (r : Nat)
  | default (i : Nat)
  | make (i r : Nat) (own : Bool)
  | moveCtor (i j : Nat)
  | moveAssign (i j : Nat)
  | setFd (i : Nat) (fd : Option Nat) (own : Bool)
  | getFd (i : Nat) (keep : Bool)
  /-- `read` or `write` -/
  | use (i : Nat)
  | drop (i : Nat)
  deriving DecidableEq, Repr

/-- Ownership of the file passes from the program to the object. -/
def hand (caller : Nat → Bool) (fd : Option Nat) (own : Bool) : Nat → Bool := match fd, own with
  | some r, true => upd caller r false
  | _, _ => caller

def step (s : St) : Op → Res St
  | .openFile => .ok { s with caller := upd s.caller s.next true, next := s.next + 1, log := .made s.next :: s.log }
  | .closeFile r => .ok { s with caller := upd s.caller r false, log := release ⟨some r, true⟩ s.log }
  -- FileStreamReader.cpp 12-13
  | .default i => .ok { s with vars := upd s.vars i (some ⟨none, false⟩) }
  -- 22-25
  | .make i r own => .ok { s with vars := upd s.vars i (some ⟨some r, own⟩), caller := hand s.caller (some r) own }
  -- 15-20
  | .moveCtor i j => match s.vars j with
    | some v => .ok { s with vars := upd (upd s.vars i (some v)) j (some ⟨none, false⟩) }
    | none => .ub
  -- 35-44: the old descriptor is not closed
  | .moveAssign i j => match s.vars i, s.vars j with
    | some _, some v => .ok { s with vars := upd (upd s.vars i (some v)) j (some ⟨none, false⟩) }
    | _, _ => .ub
  -- 78-87
  | .setFd i fd own => match s.vars i with
    | some v => .ok { s with vars := upd s.vars i (some ⟨fd, own⟩), caller := hand s.caller fd own,
                             log := release v s.log }
    | none => .ub
  -- 89-94
  | .getFd i keep => match s.vars i with
    | some v => .ok { s with vars := upd s.vars i (some { v with own := keep }),
                             caller := match v.own, keep, v.fd with
                               | true, false, some r => upd s.caller r true
                               | _, _, _ => s.caller }
    | none => .ub
  | .use i => match s.vars i with
    | some v => match v.fd with
      | some r => .ok { s with log := .used r :: s.log }
      | none => .ok s
    | none => .ub
  -- 27-33
  | .drop i => match s.vars i with
    | some v => .ok { s with vars := upd s.vars i none, log := release v s.log }
    | none => .ub

/-- The file a stream will close. -/
def held : Option Var → Option Nat
  | some ⟨some r, true⟩ => some r
  | _ => none

/-- Who is responsible: object `i` (key `2 i`), the program for file `r` (key `2 r + 1`). -/
def owner (s : St) (k : Nat) : Option Nat :=
  if k % 2 = 0 then held (s.vars (k / 2))
  else if s.caller (k / 2) then some (k / 2) else none

/-- Variables are declared before use and only once; the program closes and gives away only files it is responsible for. -/
def pre (s : St) : Op → Prop
  | .openFile => True
  | .closeFile r => s.caller r = true
  | .default i => s.vars i = none
  | .make i r own => s.vars i = none ∧ (own = true → s.caller r = true)
  | .moveCtor i j => s.vars i = none ∧ s.vars j ≠ none
  | .moveAssign i j => s.vars i ≠ none ∧ s.vars j ≠ none
  | .setFd i (some r) own => s.vars i ≠ none ∧ (own = true → s.caller r = true)
  | .setFd i none _ => s.vars i ≠ none
  | .getFd i _ | .drop i => s.vars i ≠ none
  | .use i => (s.vars i).map (fun v => v.own) = some true

instance (s : St) (o : Op) : Decidable (pre s o) := by
  cases o with
  | setFd i fd own => cases fd <;> unfold pre <;> infer_instance
  | _ => unfold pre; infer_instance

/-- Additionally: a stream that owns a file is not assigned to, none is assigned to itself, and a stream that does not own its file
is not told to "continue" owning it. -/
def careful (s : St) (o : Op) : Prop :=
  pre s o ∧ match o with
    | .moveAssign i j => owner s (2 * i) = none ∧ i ≠ j
    | .getFd i true => (s.vars i).map (fun v => v.own) = some true
    | _ => True

instance (s : St) (o : Op) : Decidable (careful s o) := by
  unfold careful
  cases o with
  | getFd i keep => cases keep <;> infer_instance
  | _ => infer_instance

/-! ## Named pipes -/

/-- NamedPipeWriter.hpp 60-61 (the name is not modelled); `del` is `delPipe`, `none` when it was never initialised. -/
structure PW where
  file : Var
  del : Option Bool
  deriving DecidableEq, Repr

/-- NamedPipeWriter.cpp 12-13: `delPipe` is not initialised. -/
def PW.default : PW := ⟨⟨none, false⟩, none⟩

/-- Reading a `bool`; an uninitialised one may read as anything (`ind`), or be undefined behaviour (`ind = none`). -/
def readBool (ind : Option Bool) : Option Bool → Res Bool
  | some b => .ok b
  | none => match ind with
    | some b => .ok b
    | none => .ub

/-- NamedPipeWriter.cpp 36-44: `operator=(&&)`: `x = move(y)`; the new `x`, the new `y`. -/
def PW.moveAssign (ind : Option Bool) (_x y : PW) : Res (PW × PW) :=
  match readBool ind y.del with
  | .ok b => .ok (⟨y.file, some b⟩, ⟨⟨none, false⟩, some false⟩)
  | .ub => .ub
  | .loop => .loop

/-- NamedPipeWriter.cpp 27-34: the destructor; the log afterwards and whether the pipe's file is removed. -/
def PW.destroy (ind : Option Bool) (x : PW) (log : List Ev) : Res (List Ev × Bool) :=
  match readBool ind x.del with
  | .ok b => .ok (release x.file log, b)
  | .ub => .ub
  | .loop => .loop

/-- `NamedPipeStream`: NamedPipeStream.hpp 90-91. -/
structure PS where
  reader : Var
  writer : PW
  deriving DecidableEq, Repr

/-- NamedPipeStream.cpp 100-104: `deinit`: both members are assigned from temporaries, which are then destroyed. -/
def PS.deinit (ind : Option Bool) (p : PS) (log : List Ev) : Res (PS × List Ev) :=
  -- `reader = NamedPipeReader{}`
  let reader : Var := ⟨none, false⟩
  let log := release ⟨none, false⟩ log
  -- `writer = NamedPipeWriter{}`
  match PW.moveAssign ind p.writer PW.default with
  | .ok (writer, tmp) => match PW.destroy ind tmp log with
    | .ok (log, _) => .ok (⟨reader, writer⟩, log)
    | .ub => .ub
    | .loop => .loop
  | .ub => .ub
  | .loop => .loop

/-- NamedPipeStream.cpp 29-32: the destructor: `deinit`, then the members' destructors (reader, then writer). -/
def PS.destroy (ind : Option Bool) (p : PS) (log : List Ev) : Res (List Ev) :=
  match PS.deinit ind p log with
  | .ok (p, log) => match PW.destroy ind p.writer (release p.reader log) with
    | .ok (log, _) => .ok log
    | .ub => .ub
    | .loop => .loop
  | .ub => .ub
  | .loop => .loop

end Flame.Own.FileS
