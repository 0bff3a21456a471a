import Verif.Vector.Model
import Verif.Circular.Iterator

/-!
# `RamStream` — src/Streams/RamStream.cpp

The stream is a `templates::Vector<Byte>` (`Verif/Vector/Model.lean`; bytes are trivially copyable, so `triv = true`).
A range is a pair of positions in the caller's memory `mem`, which is not part of the stream; a circular range goes round
the whole of `mem`.  The destructor and the default constructor are those of the vector; `flush` does nothing.
-/

namespace Flame.Ram

variable {α : Type}

/-- How the iterators of a range move: a pointer, or a circular iterator (Operators.hpp 475-485) over `n` bytes. -/
inductive Way where
  | linear
  | circular
  deriving DecidableEq

def Way.next (w : Way) (n p : Nat) : Nat := match w with
  | .linear => p + 1
  | .circular => (CIter.inc n p).toNat

/-- RamStream.cpp 13-24 and 32-43: the loop of `read`. -/
def readLoop (w : Way) (e : Nat) : Nat → Vec α → List α → Nat → Res (Vec α × List α)
  | 0, _, _, _ => .loop
  | f + 1, v, mem, p =>
    if p = e then .ok (v, mem)
    else if v.size ≠ 0 then
      if p < mem.length then do
        let x ← v.buf.get 0
        let v ← v.erase true 0
        readLoop w e f v (mem.set p x) (w.next mem.length p)
      else .ub
    else .ok (v, mem)

/-- RamStream.cpp 10-27 (linear), 29-46 (circular): `read`: the returned number, the memory and the stream afterwards. -/
def read (w : Way) (f : Nat) (v : Vec α) (mem : List α) (b e : Nat) : Res (Vec α × List α × Int) := do
  let r ← readLoop w e f v mem b
  .ok (r.1, r.2, (v.size : Int) - r.1.size)

/-- RamStream.cpp 51-54 and 62-65: the loop of `write`. -/
def writeLoop (can : Nat → Bool) (w : Way) (e : Nat) (mem : List α) : Nat → Vec α → Nat → Res (Vec α)
  | 0, _, _ => .loop
  | f + 1, v, p =>
    if p = e then .ok v
    else match mem[p]? with
      | none => .ub
      | some x => do
        let v ← v.pushBack can (f + 2) x
        writeLoop can w e mem f v (w.next mem.length p)

/-- RamStream.cpp 48-57 (linear), 59-68 (circular): `write`: the returned number and the stream afterwards. -/
def write (can : Nat → Bool) (w : Way) (f : Nat) (v : Vec α) (mem : List α) (b e : Nat) : Res (Vec α × Int) := do
  let v' ← writeLoop can w e mem f v b
  .ok (v', (v'.size : Int) - v.size)

/-- What a program does with a stream. -/
inductive Op (α : Type) where
  | read (w : Way) (mem : List α) (b e : Nat)
  | write (w : Way) (mem : List α) (b e : Nat)
  deriving DecidableEq

/-- What it sees: the returned number and, for a read, its memory afterwards. -/
structure Out (α : Type) where
  count : Int
  mem : List α
  deriving DecidableEq

def step (can : Nat → Bool) (v : Vec α) : Op α → Res (Vec α × Out α)
  | .read w mem b e => do
    let r ← read w (mem.length + 1) v mem b e
    .ok (r.1, ⟨r.2.2, r.2.1⟩)
  | .write w mem b e => do
    let r ← write can w (mem.length + 1) v mem b e
    .ok (r.1, ⟨r.2, mem⟩)

def run (can : Nat → Bool) : Vec α → List (Op α) → Res (Vec α × List (Out α))
  | v, [] => .ok (v, [])
  | v, o :: os => do
    let r ← step can v o
    let q ← run can r.1 os
    .ok (q.1, r.2 :: q.2)

end Flame.Ram
