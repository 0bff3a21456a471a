import Verif.Stream.Split
import Verif.Own.Spec

/-!
# File streams over one file — src/Streams/Posix/FileStreamReader.cpp 46-59, src/Streams/Posix/FileStreamWriter.cpp 35-48

`FileStreamReader` and `FileStreamWriter` are made from descriptors; they never seek.  The system (open(2), read(2), write(2)): a file is a sequence of bytes;
every `open` makes an open file description with an offset of its own; descriptors made by `dup`, and stream objects made from the same descriptor, share one.  A
transfer starts at the offset and moves it by what it transferred.

Not modelled: `O_APPEND`, `O_TRUNC` and truncation by others.  The circular overloads are those of C68.
-/

namespace Flame.FileS
open Flame.Own (upd upd_self upd_ne)
open Split

/-- One file and the offsets of its open file descriptions. -/
structure St (α : Type) where
  file : List α
  pos : Nat → Nat

variable {α : Type}

/-- `write(2)`: the bytes from the offset on are replaced, the file grows if it has to. -/
def put (file : List α) (p : Nat) (xs : List α) : List α := file.take p ++ xs ++ file.drop (p + xs.length)

/-- FileStreamWriter.cpp 35-48: `write` with a linear range, by a stream whose descriptor refers to the description `d`; `ret`: what the system accepts at most, `none`: it fails. -/
def write (s : St α) (d : Nat) (ret : Option Nat) (mem : List α) (b e : Nat) : Res (St α × Int) := do
  let (c, xs) ← writeLinear ret [] mem b e
  .ok (⟨put s.file (s.pos d) xs, upd s.pos d (s.pos d + xs.length)⟩, c)

/-- FileStreamReader.cpp 46-59: `read` with a linear range: the count and the memory afterwards. -/
def read (s : St α) (d : Nat) (ret : Option Nat) (mem : List α) (b e : Nat) : Res (St α × Int × List α) := do
  let (c, rest, mem') ← readLinear ret (s.file.drop (s.pos d)) mem b e
  .ok (⟨s.file, upd s.pos d (s.pos d + ((s.file.drop (s.pos d)).length - rest.length))⟩, c, mem')

inductive Op (α : Type) where
  | write (d : Nat) (ret : Option Nat) (mem : List α) (b e : Nat)
  | read (d : Nat) (ret : Option Nat) (mem : List α) (b e : Nat)

/-- The file, and what the program can know: the bytes its writers reported as written, in order, and the bytes the readers of each description reported and
put into the given memory. -/
structure World (α : Type) where
  st : St α
  sent : List α
  got : Nat → List α

def step (w : World α) : Op α → Res (World α)
  | .write d ret mem b e => do
    let (s, c) ← write w.st d ret mem b e
    .ok ⟨s, w.sent ++ (mem.drop b).take c.toNat, w.got⟩
  | .read d ret mem b e => do
    let (s, c, mem') ← read w.st d ret mem b e
    .ok ⟨s, w.sent, upd w.got d (w.got d ++ (mem'.drop b).take c.toNat)⟩

/-- The file holds `f`; the description `d` is at the end of the file, every other one at its start. -/
def start (f : List α) (d : Nat) : World α := ⟨⟨f, fun k => if k = d then f.length else 0⟩, [], fun _ => []⟩

end Flame.FileS
