import Verif.Basic
import Verif.Circular.Iterator

/-!
# Splitting circular ranges, and file streams over circular ranges

src/Streams/StreamUtils.cpp 12-40, src/Streams/Posix/FileStreamReader.cpp 46-76,
src/Streams/Posix/FileStreamWriter.cpp 35-66.

A circular range is a pair of positions `b`, `e` in a buffer of `n` bytes; pointers are positions in that buffer.
-/

namespace Flame.Split

/-- StreamUtils.cpp 20-24: the loop; `p` is `iteratorPrev`, `q` is `iteratorNext`. -/
def walk (n : Int) : Nat → Int → Int → Res (Int × Int)
  | 0, _, _ => .loop
  | f + 1, p, q => if p < q then walk n f (CIter.inc n p) (CIter.inc n q) else .ok (p, q)

/-- StreamUtils.cpp 12-40: `getContiniousRanges`: the bounds of `range1` and of `range2`. -/
def split (f : Nat) (n b e : Int) : Res ((Int × Int) × (Int × Int)) := do
  -- 16-17
  let r ← walk n f b (CIter.plusAssign n b 1)
  -- 25-33
  .ok ((b, r.1 + 1), (r.2, e))

variable {α : Type}

/-- What `::read` may do: fail, or deliver up to `k` of the bytes that are there (and never more than asked for).
Result: the returned number, what is left to read, memory. -/
def sysRead (ret : Option Nat) (data mem : List α) (p : Int) (n : Nat) : Res (Int × List α × List α) :=
  match ret with
  | none => .ok (-1, data, mem)
  | some k =>
    let k := min k (min n data.length)
    if 0 ≤ p ∧ p.toNat + k ≤ mem.length then
      .ok (k, data.drop k, mem.take p.toNat ++ data.take k ++ mem.drop (p.toNat + k))
    else .ub

/-- FileStreamReader.cpp 46-59: `read` of a linear range; `-1` is `INVALID_COUNT_BYTES`. -/
def readLinear (ret : Option Nat) (data mem : List α) (b e : Int) : Res (Int × List α × List α) :=
  if e - b > 0 then sysRead ret data mem b (e - b).toNat else .ok (-1, data, mem)

/-- FileStreamReader.cpp 61-76: `read` of a circular range over all of `mem`. -/
def readCircular (ret₀ ret₁ : Option Nat) (data mem : List α) (b e : Int) : Res (Int × List α × List α) := do
  let rs ← split (mem.length + 1) mem.length b e
  let r₀ ← readLinear ret₀ data mem rs.1.1 rs.1.2
  if r₀.1 ≠ -1 then do
    let r₁ ← readLinear ret₁ r₀.2.1 r₀.2.2 rs.2.1 rs.2.2
    if r₁.1 < 0 then .ok (r₁.1, r₁.2)
    else .ok (r₀.1 + r₁.1, r₁.2)
  else .ok (r₀.1 + -1, r₀.2)

/-- What `::write` may do: fail, or take up to `k` of the bytes.  Result: the returned number and the file's contents. -/
def sysWrite (ret : Option Nat) (file mem : List α) (p : Int) (n : Nat) : Res (Int × List α) :=
  match ret with
  | none => .ok (-1, file)
  | some k =>
    if 0 ≤ p ∧ p.toNat + n ≤ mem.length then
      .ok ((min k n : Nat), file ++ (mem.drop p.toNat).take (min k n))
    else .ub

/-- FileStreamWriter.cpp 35-48: `write` of a linear range. -/
def writeLinear (ret : Option Nat) (file mem : List α) (b e : Int) : Res (Int × List α) :=
  if e - b > 0 then sysWrite ret file mem b (e - b).toNat else .ok (-1, file)

/-- FileStreamWriter.cpp 50-66: `write` of a circular range. -/
def writeCircular (ret₀ ret₁ : Option Nat) (file mem : List α) (b e : Int) : Res (Int × List α) := do
  let rs ← split (mem.length + 1) mem.length b e
  let r₀ ← writeLinear ret₀ file mem rs.1.1 rs.1.2
  if r₀.1 ≠ -1 ∧ rs.2.2 - rs.2.1 > 0 then do
    let r₁ ← writeLinear ret₁ r₀.2 mem rs.2.1 rs.2.2
    if r₁.1 < 0 then .ok (r₁.1, r₁.2)
    else .ok (r₀.1 + r₁.1, r₁.2)
  else .ok (r₀.1 + -1, r₀.2)

end Flame.Split
