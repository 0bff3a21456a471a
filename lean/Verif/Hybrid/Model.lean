import Verif.Vector.Model
import Verif.Array.Model

/-!
# Model of `HybridVector<T, N>` (include/FlameIDE/Templates/HybridVector.hpp)

The container is a `Variant<Array<T, N>, Vector<T>>` that may also be unset.  Positions are the number of steps from
`begin()`.  `f` is the fuel of the recursive calls of `Vector`; the recursion of `HybridVector` itself is at most two
deep and is unfolded.

Simplifications: switching the storage destroys the old container (`reset`), which is counted in `Verif/Hybrid/Tally.lean` only; `forward(args)...` is
one value.
-/

namespace Flame

/-- The states of `container` (HybridVector.hpp 593). -/
inductive HVec (α : Type) where
  | unset
  | arr (s : SVec α)
  | vec (v : Vec α)
  deriving Repr, DecidableEq

namespace HVec
variable {α : Type} (triv : Bool) (can : Nat → Bool) (N : Nat) (f : Nat)

/-- HybridVector.hpp 1423-1441. -/
def size : HVec α → Nat
  | .unset => 0
  | .arr s => s.size
  | .vec v => v.size

/-- HybridVector.hpp 2023-2053, array branch: reserve twice the size, move the elements over. -/
def toVector (s : SVec α) : Res (Vec α) := do
  let xs ← s.toList
  Vec.pushBackList can f ((Vec.empty : Vec α).reserve can (s.size * 2)) xs

/-- HybridVector.hpp 1989-2021, vector branch: the first `N` elements move into a new array. -/
def toArray (v : Vec α) : Res (SVec α) := do
  let xs ← v.buf.getRange 0 (if v.size > N then N else v.size)
  (SVec.empty N).pushBackList xs

/-- Array branch of HybridVector.hpp 1666-1755. -/
def pushBackArr (s : SVec α) (x : α) : Res (HVec α) :=
  if s.cap > s.size then do
    let s ← s.pushBack x
    .ok (.arr s)
  else do
    let v ← toVector can f s
    let v ← v.pushBack can f x
    .ok (.vec v)

/-- HybridVector.hpp 1666-1694 (`const&`), 1696-1724 (`&&`), 1726-1755 (`emplaceBack`). -/
def pushBack (h : HVec α) (x : α) : Res (HVec α) :=
  match h with
  | .unset => pushBackArr can f (SVec.empty N) x
  | .arr s => pushBackArr can f s x
  | .vec v => do
    let v ← v.pushBack can f x
    .ok (.vec v)

/-- HybridVector.hpp 1757-1771. -/
def popBack (h : HVec α) : Res (HVec α) :=
  match h with
  | .unset => .ok .unset
  | .arr s => do
    let s ← s.popBack triv
    .ok (.arr s)
  | .vec v => do
    let v ← v.popBack triv
    .ok (.vec v)

/-- HybridVector.hpp 1773-1807 and 1809-1843.  A full array: `diff = begin() - it` is `-pos`, so the new iterator is
`begin() - pos`, outside the vector unless `pos = 0`.  An unset container: `it` holds no array iterator, so a null
iterator reaches `Array::insert`. -/
def insert (h : HVec α) (pos : Nat) (x : α) : Res (HVec α) :=
  match h with
  | .unset => .ub
  | .arr s =>
    if s.cap > s.size then do
      let s ← s.insert triv pos x
      .ok (.arr s)
    else do
      let v ← toVector can f s
      if pos = 0 then
        let v ← v.insert triv can f 0 x
        .ok (.vec v)
      else .ub
  | .vec v => do
    let v ← v.insert triv can f pos x
    .ok (.vec v)

/-- HybridVector.hpp 1894-1927: here the difference is taken the right way round. -/
def emplace (h : HVec α) (pos : Nat) (x : α) : Res (HVec α) :=
  match h with
  | .unset => .ub
  | .arr s =>
    if s.cap = s.size then do
      let v ← toVector can f s
      let v ← v.emplace triv can f pos x
      .ok (.vec v)
    else do
      let s ← s.emplace triv pos x
      .ok (.arr s)
  | .vec v => do
    let v ← v.emplace triv can f pos x
    .ok (.vec v)

/-- HybridVector.hpp 1845-1892.  Unset container: `it == Iterator()` compares two unset `Variant`s, which are never equal
(Variant.hpp 513-520), so nothing is inserted. -/
def insertRange (h : HVec α) (pos : Nat) (xs : List α) : Res (HVec α) :=
  match h with
  | .unset => .ok .unset
  | .arr s =>
    if xs.length < s.cap - s.size then do
      let s ← s.insertRange triv pos xs
      .ok (.arr s)
    else do
      let v ← toVector can f s
      if pos = 0 then
        let v ← v.insertRange triv can f 0 xs
        .ok (.vec v)
      else .ub
  | .vec v => do
    let v ← v.insertRange triv can f pos xs
    .ok (.vec v)

/-- The tail of HybridVector.hpp 1936-1940 and 1962-1966. -/
def shrinkArr (s : SVec α) : Res (HVec α) := if s.size = 0 then .ok .unset else .ok (.arr s)

/-- The tail of HybridVector.hpp 1945-1950 and 1971-1976. -/
def shrinkVec (v : Vec α) : Res (HVec α) :=
  if v.size < N then do
    let s ← toArray N v
    .ok (.arr s)
  else .ok (.vec v)

/-- HybridVector.hpp 1929-1953. -/
def erase (h : HVec α) (pos : Nat) : Res (HVec α) :=
  match h with
  | .unset => .ok .unset
  | .arr s => do
    let s ← s.erase triv pos
    shrinkArr s
  | .vec v => do
    let v ← v.erase triv pos
    shrinkVec N v

/-- HybridVector.hpp 1955-1979. -/
def eraseRange (h : HVec α) (b e : Nat) : Res (HVec α) :=
  match h with
  | .unset => .ok .unset
  | .arr s => do
    let s ← s.eraseRange triv b e
    shrinkArr s
  | .vec v => do
    let v ← v.eraseRange triv b e
    shrinkVec N v

/-- HybridVector.hpp 1463-1468. -/
def clean (_h : HVec α) : HVec α := .arr (SVec.empty N)

/-- HybridVector.hpp 1981-1985. -/
def reset (_h : HVec α) : HVec α := .unset

/-- Range-for over the container (1490-1526, 1578-1614).  Unset container: both iterators are unset, `!=` is true
(815-825), and dereferencing reads through a null pointer (683-696). -/
def toList : HVec α → Res (List α)
  | .unset => .ub
  | .arr s => s.toList
  | .vec v => v.toList

/-- `operator[]` (1369-1384), which is also `data()[i]` (1385-1421). -/
def at? (h : HVec α) (i : Nat) : Res α :=
  match h with
  | .unset => .ub
  | .arr s => s.buf.get i
  | .vec v => v.buf.get i

end HVec
end Flame
