import Verif.Stream.FileOwn
import Verif.Stream.Fifo

/-!
# The file of a named pipe: its name and its removal

src/Streams/Posix/NamedPipeWriter.cpp 12-44, 56-80; NamedPipeReader.cpp 12-28, 46-63; NamedPipeStream.cpp 12-42, 81-104;
include/FlameIDE/Streams/NamedPipeWriter.hpp 60-61; include/FlameIDE/Os/Posix/Constants.hpp 43.  The descriptors are the matter of C69.

A name is the text of a C string; `none` is the name of a string without storage, whose `data()` is null.  What `String` does to the texts is
`fromRaw`, `concatStr` and `concatRaw` (C16, C20).  A `bool` that was never initialised reads as `ind`, or reading it is undefined (`ind = none`).
Simplification: `remove` is recorded, whether it succeeds is not.
-/

namespace Flame.PipeName
open Flame.Own (upd upd_self upd_ne)
open Flame.Own.FileS (readBool)

abbrev Name := List Char

/-- Os/Posix/Constants.hpp 43: `OS_PLATFORM_PREFIX` -/
def pfx : Name := "/tmp/".toList

/-- `String(const char *)` -/
def fromRaw (n : Name) : Option Name := some n

/-- String.hpp 846-852 with 366-370: `a + b` for two strings appends nothing (C20). -/
def concatStr (a _b : Option Name) : Option Name := a

/-- String.hpp 854-861: `a + "…"` -/
def concatRaw (a : Option Name) (b : Name) : Option Name := some (a.getD [] ++ b)

/-- NamedPipeWriter.hpp 60-61 -/
structure W where
  fname : Option Name
  del : Option Bool
  deriving DecidableEq, Repr

/-- NamedPipeWriter.cpp 12-13: `delPipe` is not initialised. -/
def W.default : W := ⟨none, none⟩

/-- 15-19: the move constructor: the name is not moved. The new object and the source. -/
def W.moveCtor (ind : Option Bool) (w : W) : Res (W × W) := match readBool ind w.del with
  | .ok b => .ok (⟨none, some b⟩, { w with del := some false })
  | .ub => .ub
  | .loop => .loop

/-- 21-25 -/
def W.make (n : Name) (del : Bool) : W := ⟨fromRaw n, some del⟩

/-- 27-34: the destructor: what is removed. -/
def W.destroy (ind : Option Bool) (w : W) : Res (List Name) := match readBool ind w.del with
  | .ok true => match w.fname with
    | some n => .ok [n]
    | none => .ub
  | .ok false => .ok []
  | .ub => .ub
  | .loop => .loop

/-- 36-44: `x = move(y)`: the name is not moved. -/
def W.moveAssign (ind : Option Bool) (x y : W) : Res (W × W) := match readBool ind y.del with
  | .ok b => .ok ({ x with del := some b }, { y with del := some false })
  | .ub => .ub
  | .loop => .loop

/-- The assignment of an object to itself: 40-41. -/
def W.selfAssign (ind : Option Bool) (x : W) : Res W := match readBool ind x.del with
  | .ok _ => .ok { x with del := some false }
  | .ub => .ub
  | .loop => .loop

/-- 56-69: `open`, where `ok` says whether the system opened the pipe: the object and the status. -/
def W.open (w : W) (_n : Name) (del ok : Bool) : W × Int :=
  if ok then ({ w with del := some del }, 0) else (w, Fifo.INVALID)

/-- 71-74: `getName` -/
def W.getName (w : W) : Option Name := w.fname

/-- 76-80: `setName`; the argument is a `String`. -/
def W.setName (_w : W) (n : Name) (del : Bool) : W := ⟨concatStr (fromRaw pfx) (fromRaw n), some del⟩

/-! ## Writers -/

structure St where
  vars : Nat → Option W
  /-- names `remove` was called with, last first -/
  log : List Name
  /-- the pipe each object has, and whether it was asked to delete it -/
  has : Nat → Option (Name × Bool)
  /-- the pipes that were to be deleted and have been given up by their object, last first -/
  due : List Name

def start : St := ⟨fun _ => none, [], fun _ => none, []⟩

inductive Op where
  | default (i : Nat)
  | make (i : Nat) (n : Name) (del ok : Bool)
  | moveCtor (i j : Nat)
  | moveAssign (i j : Nat)
  | open (i : Nat) (n : Name) (del ok : Bool)
  | setName (i : Nat) (n : Name) (del : Bool)
  | drop (i : Nat)
  deriving DecidableEq, Repr

/-- What is to be removed when an object gives up its pipe. -/
def dueOf : Option (Name × Bool) → List Name
  | some (n, true) => [n]
  | _ => []

def step (ind : Option Bool) (s : St) : Op → Res St
  | .default i => .ok { s with vars := upd s.vars i (some .default), has := upd s.has i none }
  | .make i n del ok => .ok { s with vars := upd s.vars i (some (.make n del)), has := upd s.has i (if ok then some (n, del) else none) }
  | .moveCtor i j => match s.vars j with
    | some w => match w.moveCtor ind with
      | .ok (x, y) => .ok { s with vars := upd (upd s.vars i (some x)) j (some y), has := upd (upd s.has i (s.has j)) j none }
      | .ub => .ub
      | .loop => .loop
    | none => .ub
  | .moveAssign i j => match s.vars i, s.vars j with
    | some x, some y =>
      if i = j then match x.selfAssign ind with
        | .ok x => .ok { s with vars := upd s.vars i (some x) }
        | .ub => .ub
        | .loop => .loop
      else match x.moveAssign ind y with
        | .ok (x, y) => .ok ⟨upd (upd s.vars i (some x)) j (some y), s.log, upd (upd s.has i (s.has j)) j none, dueOf (s.has i) ++ s.due⟩
        | .ub => .ub
        | .loop => .loop
    | _, _ => .ub
  | .open i n del ok => match s.vars i with
    | some w => .ok ⟨upd s.vars i (some (w.open n del ok).1), s.log, upd s.has i (if ok then some (n, del) else none), dueOf (s.has i) ++ s.due⟩
    | none => .ub
  | .setName i n del => match s.vars i with
    | some w => .ok { s with vars := upd s.vars i (some (w.setName n del)), has := upd s.has i ((s.has i).map fun p => (p.1, del)) }
    | none => .ub
  | .drop i => match s.vars i with
    | some w => match w.destroy ind with
      | .ok l => .ok ⟨upd s.vars i none, l ++ s.log, upd s.has i none, dueOf (s.has i) ++ s.due⟩
      | .ub => .ub
      | .loop => .loop
    | none => .ub

/-- Variables are declared before use and only once. -/
def pre (s : St) : Op → Prop
  | .default i | .make i _ _ _ => s.vars i = none
  | .moveCtor i j => s.vars i = none ∧ s.vars j ≠ none
  | .moveAssign i j => s.vars i ≠ none ∧ s.vars j ≠ none
  | .open i _ _ _ | .setName i _ _ | .drop i => s.vars i ≠ none

instance (s : St) (o : Op) : Decidable (pre s o) := by
  cases o <;> unfold pre <;> infer_instance

/-! ## Streams: NamedPipeStream.cpp.  The writer comes first in the class (NamedPipeStream.hpp 90-91); readers have no part in names. -/

/-- 100-104: `deinit`: `writer = NamedPipeWriter{}`, and the temporary is destroyed. The writer and what is removed. -/
def deinit (ind : Option Bool) (w : W) : Res (W × List Name) := match w.moveAssign ind .default with
  | .ok (x, tmp) => match tmp.destroy ind with
    | .ok l => .ok (x, l)
    | .ub => .ub
    | .loop => .loop
  | .ub => .ub
  | .loop => .loop

structure SSt where
  vars : Nat → Option W
  log : List Name

def sstart : SSt := ⟨fun _ => none, []⟩

inductive SOp where
  | default (i : Nat)
  | make (i : Nat) (n : Name) (del : Bool)
  | moveCtor (i j : Nat)
  | moveAssign (i j : Nat)
  | open (i : Nat) (n : Name) (del : Bool)
  | drop (i : Nat)
  deriving DecidableEq, Repr

def sstep (ind : Option Bool) (s : SSt) : SOp → Res SSt
  -- 12
  | .default i => .ok { s with vars := upd s.vars i (some .default) }
  -- 19-27
  | .make i n del => .ok { s with vars := upd s.vars i (some (W.default.setName n del)) }
  -- 14-17
  | .moveCtor i j => match s.vars j with
    | some w => match w.moveCtor ind with
      | .ok (x, y) => .ok { s with vars := upd (upd s.vars i (some x)) j (some y) }
      | .ub => .ub
      | .loop => .loop
    | none => .ub
  -- 34-42
  | .moveAssign i j => match s.vars i, s.vars j with
    | some x, some y => match deinit ind x with
      | .ok (x, l) =>
        if i = j then match x.selfAssign ind with
          | .ok x => .ok ⟨upd s.vars i (some x), l ++ s.log⟩
          | .ub => .ub
          | .loop => .loop
        else match x.moveAssign ind y with
          | .ok (x, y) => .ok ⟨upd (upd s.vars i (some x)) j (some y), l ++ s.log⟩
          | .ub => .ub
          | .loop => .loop
      | .ub => .ub
      | .loop => .loop
    | _, _ => .ub
  -- 81-93
  | .open i n del => match s.vars i with
    | some w => match deinit ind w with
      | .ok (w, l) => .ok ⟨upd s.vars i (some (w.setName n del)), l ++ s.log⟩
      | .ub => .ub
      | .loop => .loop
    | none => .ub
  -- 29-32 and the destructor of the member
  | .drop i => match s.vars i with
    | some w => match deinit ind w with
      | .ok (w, l) => match w.destroy ind with
        | .ok m => .ok ⟨upd s.vars i none, m ++ l ++ s.log⟩
        | .ub => .ub
        | .loop => .loop
      | .ub => .ub
      | .loop => .loop
    | none => .ub

/-- 81-93: the status of `open`, whatever the system answered. -/
def sopenStatus (_d : Fifo.Ds) : Int := 0

def spre (s : SSt) : SOp → Prop
  | .default i | .make i _ _ => s.vars i = none
  | .moveCtor i j => s.vars i = none ∧ s.vars j ≠ none
  | .moveAssign i j => s.vars i ≠ none ∧ s.vars j ≠ none
  | .open i _ _ | .drop i => s.vars i ≠ none

instance (s : SSt) (o : SOp) : Decidable (spre s o) := by
  cases o <;> unfold spre <;> infer_instance

/-! ## Readers -/

/-- NamedPipeReader.cpp 19-23: the pipe that is opened and the name of the object. -/
def readerMake (n : Name) : Name × Option Name := (n, concatRaw (fromRaw pfx) n)

end Flame.PipeName
