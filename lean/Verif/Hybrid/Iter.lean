import Verif.Hybrid.Copies

/-!
# Iterators of `HybridVector` (include/FlameIDE/Templates/HybridVector.hpp 31-250, 600-980)

An iterator is a `Variant<ArrayIterator, VectorIterator>`: unset with some negative index, or a pointer into the storage it was taken from, here
the offset from the first element.  Offsets are unbounded: forming a pointer outside the storage is not made undefined here (C128 does), reading
through it is.

`ConstIterator` (1016-1303) has the same operators; its constructor from an array iterator names an undeclared `vWrappedIterator` (1006-1008), so
programs that traverse a constant hybrid vector do not compile.
-/

namespace Flame

inductive HIt where
  | unset (index : Int)
  | arr (p : Int)
  | vec (p : Int)
  deriving Repr, DecidableEq

namespace HIt
variable {α : Type}

/-- `Iterator()`: Variant.hpp 446-448. -/
def null : HIt := .unset (-1)

/-- `wrappedIterator.getCurrentIndex()`; `ARRAY_INDEX`, `VECTOR_INDEX`: HybridVector.hpp 18-22. -/
def index : HIt → Int
  | .unset i => i
  | .arr _ => 0
  | .vec _ => 1

/-- Copying (BaseIterator.hpp 82-85): `wrappedIterator` is mutable, so the copy is made by `Variant(T &&)` (Variant.hpp 474-481, 245-252), which
does nothing for an unset source: the copy has the initial value of `currentIndex` (259). -/
def copy : HIt → HIt
  | .unset _ => .unset (-2 ^ 63)
  | it => it

/-- HybridVector.hpp 777-794; `++` (636-650) adds one.  Neither alternative: `*get<VectorIterator>()` of a null pointer. -/
def addAssign (n : Int) : HIt → Res HIt
  | .arr p => .ok (.arr (p + n))
  | .vec p => .ok (.vec (p + n))
  | .unset _ => .ub

/-- HybridVector.hpp 796-813; `--` (660-674) subtracts one. -/
def subAssign (n : Int) : HIt → Res HIt
  | .arr p => .ok (.arr (p - n))
  | .vec p => .ok (.vec (p - n))
  | .unset _ => .ub

/-- HybridVector.hpp 636-650. -/
def inc (it : HIt) : Res HIt := addAssign 1 it

/-- HybridVector.hpp 660-674. -/
def dec (it : HIt) : Res HIt := subAssign 1 it

/-- HybridVector.hpp 652-658: the result and the iterator afterwards. -/
def postInc (it : HIt) : Res (HIt × HIt) := do
  let n ← inc it
  .ok (copy it, n)

/-- HybridVector.hpp 676-682. -/
def postDec (it : HIt) : Res (HIt × HIt) := do
  let n ← dec it
  .ok (copy it, n)

/-- HybridVector.hpp 728-737. -/
def add (it : HIt) (n : Int) : Res HIt := addAssign n (copy it)

/-- HybridVector.hpp 739-748. -/
def sub (it : HIt) (n : Int) : Res HIt := subAssign n (copy it)

/-- HybridVector.hpp 750-775: the difference; zero unless both hold the same kind. -/
def diff : HIt → HIt → Int
  | .arr p, .arr q => p - q
  | .vec p, .vec q => p - q
  | _, _ => 0

/-- HybridVector.hpp 815-819 by Variant.hpp 512-520: both set and of the same kind. -/
def eq : HIt → HIt → Bool
  | .arr p, .arr q => p == q
  | .vec p, .vec q => p == q
  | _, _ => false

/-- HybridVector.hpp 821-825. -/
def ne (a b : HIt) : Bool := !eq a b

/-- The common shape of the ordering operators: same index, then the array iterators or else the vector iterators are compared, the latter through a
null pointer if there are none; otherwise `false`. -/
def compare (f : Int → Int → Bool) (a b : HIt) : Res Bool :=
  if index a = index b then
    match a, b with
    | .arr p, .arr q => .ok (f p q)
    | .vec p, .vec q => .ok (f p q)
    | _, _ => .ub
  else .ok false

/-- HybridVector.hpp 827-851. -/
def lt (a b : HIt) : Res Bool := compare (fun p q => p < q) a b

/-- HybridVector.hpp 853-877. -/
def gt (a b : HIt) : Res Bool := compare (fun p q => p > q) a b

/-- HybridVector.hpp 879-903. -/
def le (a b : HIt) : Res Bool := compare (fun p q => p ≤ q) a b

/-- HybridVector.hpp 905-929. -/
def ge (a b : HIt) : Res Bool := compare (fun p q => p ≥ q) a b

/-- `*it` for the iterator of a container `h` (HybridVector.hpp 684-726): reading through a pointer into storage that is gone, outside of it, or
through a null pointer is undefined. -/
def deref (h : HVec α) (it : HIt) : Res α :=
  match it, h with
  | .arr p, .arr s => if p < 0 then .ub else s.buf.get p.toNat
  | .vec p, .vec v => if p < 0 then .ub else v.buf.get p.toNat
  | _, _ => .ub

/-- `it[n]` (HybridVector.hpp 931-943): `(&*it)[n]`. -/
def at? (h : HVec α) (it : HIt) (n : Int) : Res α :=
  match it with
  | .arr p => deref h (.arr (p + n))
  | .vec p => deref h (.vec (p + n))
  | .unset _ => .ub

end HIt

namespace HVec
variable {α : Type}

/-- HybridVector.hpp 1490-1507. -/
def begin : HVec α → HIt
  | .unset => .null
  | .arr _ => .arr 0
  | .vec _ => .vec 0

/-- HybridVector.hpp 1578-1595. -/
def end' : HVec α → HIt
  | .unset => .null
  | .arr s => .arr s.size
  | .vec v => .vec v.size

/-- HybridVector.hpp 1534-1551 and 1622-1639: the iterators wrapped by `rbegin()` and `rend()`. -/
def rbegin : HVec α → HIt
  | .unset => .null
  | .arr s => .arr (s.size - 1)
  | .vec v => .vec (v.size - 1)

/-- HybridVector.hpp 1622-1639. -/
def rend : HVec α → HIt
  | .unset => .null
  | .arr _ => .arr (-1)
  | .vec _ => .vec (-1)

/-- `for (; it != e; ++it) use(*it)`, at most `f` rounds. -/
def loop (h : HVec α) : Nat → HIt → HIt → Res (List α)
  | 0, _, _ => .loop
  | f + 1, it, e =>
    if HIt.ne it e then do
      let x ← HIt.deref h it
      let it ← HIt.inc it
      let xs ← loop h f it e
      .ok (x :: xs)
    else .ok []

/-- The same over reverse iterators (Iterator/Operators.hpp 34-39): `++` decrements the wrapped iterator. -/
def loopBack (h : HVec α) : Nat → HIt → HIt → Res (List α)
  | 0, _, _ => .loop
  | f + 1, it, e =>
    if HIt.ne it e then do
      let x ← HIt.deref h it
      let it ← HIt.dec it
      let xs ← loopBack h f it e
      .ok (x :: xs)
    else .ok []

/-- HybridVector.hpp 945-954: `operator ArrayIterator()`; `none` is a null iterator. -/
def toArrayIt : HIt → Option Int
  | .arr p => some p
  | _ => none

/-- HybridVector.hpp 956-965: `operator VectorIterator()`. -/
def toVectorIt : HIt → Option Int
  | .vec p => some p
  | _ => none

/-- `Vector::insert` given an iterator: null or before the first element is undefined. -/
def insertVecAt (triv : Bool) (can : Nat → Bool) (f : Nat) (v : Vec α) (p : Option Int) (x : α) : Res (HVec α) :=
  match p with
  | some p => if p < 0 then .ub else do
    let v ← v.insert triv can f p.toNat x
    .ok (.vec v)
  | none => .ub

/-- HybridVector.hpp 1773-1843 `insert(it, object)` given an iterator. -/
def insertIt (triv : Bool) (can : Nat → Bool) (f : Nat) (h : HVec α) (it : HIt) (x : α) : Res (HVec α) :=
  match h with
  | .unset => .ub
  | .arr s =>
    if s.cap > s.size then
      match toArrayIt it with
      | some p => if p < 0 then .ub else do
        let s ← s.insert triv p.toNat x
        .ok (.arr s)
      | none => .ub
    else do
      let d := HIt.diff (begin (.arr s)) it
      let v ← toVector can f s
      let it ← HIt.add (begin (.vec v)) d
      insertVecAt triv can f v (toVectorIt it) x
  | .vec v => insertVecAt triv can f v (toVectorIt it) x

end HVec
end Flame
