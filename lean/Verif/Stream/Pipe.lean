import Verif.Stream.Split

/-!
# `PipeStream` on POSIX — src/Streams/Posix/PipeStream.cpp 22-96

The bytes written and not yet read are `data`, kept by the system.  `sent` and `received` are the bytes that the caller of `write` and `read`
takes to have been moved, by the number returned; `failed`: some system call has failed.  Who closes the descriptors is in `Stream/FileOwn`.
Simplification: descriptors are those of the one pipe or invalid; a system call on an invalid descriptor fails (EBADF); nobody else uses the pipe.
-/

namespace Flame.PipeS
open Flame.Split

/-- PipeStream.hpp 85-87: `status` (`none`: never written), whether `reader` and `writer` hold the pipe's descriptors. -/
structure Pipe where
  status : Option Int
  reader : Bool
  writer : Bool
  deriving DecidableEq, Repr

structure St (α : Type) where
  p : Pipe
  data : List α
  sent : List α
  received : List α
  failed : Bool
  deriving DecidableEq, Repr

/-- PipeStream.cpp 22-31: the default constructor; `ok`: `pipe` succeeds. -/
def create (ok : Bool) : Pipe := if ok then ⟨some 0, true, true⟩ else ⟨some (-1), false, false⟩

/-- PipeStream.cpp 33-36: the move constructor: the new pipe and the old one. -/
def moveCtor (p : Pipe) : Pipe × Pipe := (⟨none, p.reader, p.writer⟩, ⟨p.status, false, false⟩)

/-- PipeStream.cpp 38-43: the constructor from two descriptors, valid or not. -/
def fromFds (reader writer : Bool) : Pipe := ⟨some 0, reader, writer⟩

/-- PipeStream.cpp 45-51: `operator=(PipeStream &&)` from another pipe. -/
def moveAssign (_p q : Pipe) : Pipe × Pipe := (⟨some 0, q.reader, q.writer⟩, ⟨q.status, false, false⟩)

/-- PipeStream.cpp 53-56: `getStatus`. -/
def getStatus (p : Pipe) : Res Int := match p.status with
  | some s => .ok s
  | none => .ub

/-- PipeStream.cpp 61-64, 71-74, 81-84, 91-94. -/
def note (p : Pipe) (n : Int) : Pipe := if n = -1 then { p with status := some n } else p

/-- A system call on the descriptor of one end. -/
def via (valid : Bool) (ret : Option Nat) : Option Nat := if valid then ret else none

/-- PipeStream.cpp 58-66: `read` of the range from `b` to `e` of `mem`; the number returned and the memory afterwards. -/
def read {α : Type} (s : St α) (ret : Option Nat) (mem : List α) (b e : Int) : Res (St α × Int × List α) :=
  (readLinear (via s.p.reader ret) s.data mem b e).bind fun (n, data, mem') =>
    .ok ({ p := note s.p n, data := data, sent := s.sent, received := s.received ++ (mem'.drop b.toNat).take n.toNat,
           failed := s.failed || (decide (0 < e - b) && (via s.p.reader ret).isNone) }, n, mem')

/-- PipeStream.cpp 78-86: `write` of the range from `b` to `e` of `mem`; the number returned. -/
def write {α : Type} (s : St α) (ret : Option Nat) (mem : List α) (b e : Int) : Res (St α × Int) :=
  (writeLinear (via s.p.writer ret) s.data mem b e).bind fun (n, data) =>
    .ok ({ p := note s.p n, data := data, sent := s.sent ++ (mem.drop b.toNat).take n.toNat, received := s.received,
           failed := s.failed || (decide (0 < e - b) && (via s.p.writer ret).isNone) }, n)

/-- PipeStream.cpp 68-76: `read` of a circular range: status, number returned, what is left, memory. -/
def readC {α : Type} (s : St α) (ret₀ ret₁ : Option Nat) (mem : List α) (b e : Int) : Res (Pipe × Int × List α × List α) :=
  (readCircular (via s.p.reader ret₀) (via s.p.reader ret₁) s.data mem b e).bind fun (n, data, mem') => .ok (note s.p n, n, data, mem')

/-- PipeStream.cpp 88-96: `write` of a circular range: status, number returned, what is in the pipe. -/
def writeC {α : Type} (s : St α) (ret₀ ret₁ : Option Nat) (mem : List α) (b e : Int) : Res (Pipe × Int × List α) :=
  (writeCircular (via s.p.writer ret₀) (via s.p.writer ret₁) s.data mem b e).bind fun (n, data) => .ok (note s.p n, n, data)

inductive Op (α : Type) where
  | read (ret : Option Nat) (mem : List α) (b e : Nat)
  | write (ret : Option Nat) (mem : List α) (b e : Nat)

def step {α : Type} (s : St α) : Op α → Res (St α)
  | .read ret mem b e => (read s ret mem b e).bind fun r => .ok r.1
  | .write ret mem b e => (write s ret mem b e).bind fun r => .ok r.1

/-- A new pipe stream. -/
def start {α : Type} (ok : Bool) : St α := ⟨create ok, [], [], [], !ok⟩

end Flame.PipeS
