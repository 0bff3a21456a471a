import Verif.Array.ElemModel
import Verif.Hybrid.Model

/-!
# A `HybridVector` whose elements bring their own operations

HybridVector.hpp 1666-2053 over the element classes of `Verif/Vector/ElemModel.lean`: the array branch is `ElemArr`, the vector branch
`ElemVec`.  The strings are moved from one storage to the other, one by one, and what they leave behind is destroyed.

Simplifications as in `Verif/Hybrid/Model.lean` (positions instead of iterators) and in the two storages: arguments are not the container's
own elements, iterators outside `[begin, end]` are `ub`.
-/

namespace Flame.ElemHyb
open Flame ElemVec

/-- HybridVector.hpp 284 and 593: the variant: nothing, an array of capacity `N`, or a vector. -/
inductive EHyb (E : Type) where
  | unset
  | arr (s : EVec E)
  | vec (v : EVec E)

variable {E : Type}

/-- The loop of HybridVector.hpp 2038-2041: the elements afterwards in the second component. -/
def pushAllMove (c : Cls E) (can : Nat → Bool) (f : Nat) : EVec E → List E → Res (EVec E × List E)
  | v, [] => .ok (v, [])
  | v, x :: xs => do
    let (v, x) ← ElemVec.pushBackMove c can f v x
    let (v, xs) ← pushAllMove c can f v xs
    .ok (v, x :: xs)

/-- The destruction of a container whose first elements were left as `ys` (HybridVector.hpp 2011, 2043; Variant.hpp 330-342). -/
def discard (s : EVec E) (ys : List E) : Res Unit := do
  let _ ← ElemVec.clean ⟨ElemArr.putAll 0 ys s.mem, s.cap, s.size⟩
  .ok ()

/-- HybridVector.hpp 2025-2045, array branch: reserve twice the size, move the elements over, destroy the array.  `container = move(vector)`
(2044) hands the allocation over as it is (Vector.hpp 418-426). -/
def useVector (c : Cls E) (can : Nat → Bool) (f : Nat) (s : EVec E) : Res (EVec E) := do
  let xs ← elems s.mem 0 s.size
  let (v, ys) ← pushAllMove c can f (reserve can EVec.empty (s.size * 2)) xs
  discard s ys
  .ok v

/-- An array that is moved to another place and destroyed where it was: once into the temporary variant and once into the container
(HybridVector.hpp 2012; Variant.hpp 466-473, 494-504; Array.hpp 466-472). -/
def relocate (c : Cls E) (N : Nat) (a : EVec E) : Res (EVec E) := do
  let (b, a) ← ElemArr.moveOf c N a
  let _ ← ElemVec.clean a
  .ok b

/-- HybridVector.hpp 1992-2013, vector branch: the first `N` elements move into an array, the vector is destroyed, the array is moved into
the container. -/
def useArray (c : Cls E) (N : Nat) (v : EVec E) : Res (EVec E) := do
  let xs ← elems v.mem 0 (if v.size > N then N else v.size)
  let (a, ys) ← ElemArr.pushAllMove c (ElemArr.empty N) xs
  discard v ys
  let a ← relocate c N a
  relocate c N a

/-- HybridVector.hpp 1671-1681, 1711 and 1731-1742. -/
def pushBackArr (c : Cls E) (can : Nat → Bool) (f : Nat) (s : EVec E) (x : E) : Res (EHyb E) :=
  if s.cap > s.size then do
    let s ← ElemArr.pushBack c s x
    .ok (.arr s)
  else do
    let v ← useVector c can f s
    let v ← ElemVec.pushBack c can f v x
    .ok (.vec v)

/-- HybridVector.hpp 1666-1694: `pushBack(const &)`; 1726-1755: `emplaceBack` with an argument of the element's type. -/
def pushBack (c : Cls E) (can : Nat → Bool) (N f : Nat) (h : EHyb E) (x : E) : Res (EHyb E) :=
  match h with
  | .unset => pushBackArr c can f (ElemArr.empty N) x
  | .arr s => pushBackArr c can f s x
  | .vec v => do
    let v ← ElemVec.pushBack c can f v x
    .ok (.vec v)

/-- HybridVector.hpp 1701-1711: (container, argument afterwards). -/
def pushMoveArr (c : Cls E) (can : Nat → Bool) (f : Nat) (s : EVec E) (x : E) : Res (EHyb E × E) :=
  if s.cap > s.size then do
    let (s, x) ← ElemArr.pushBackMove c s x
    .ok (.arr s, x)
  else do
    let v ← useVector c can f s
    let (v, x) ← ElemVec.pushBackMove c can f v x
    .ok (.vec v, x)

/-- HybridVector.hpp 1696-1724: `pushBack(&&)`. -/
def pushBackMove (c : Cls E) (can : Nat → Bool) (N f : Nat) (h : EHyb E) (x : E) : Res (EHyb E × E) :=
  match h with
  | .unset => pushMoveArr c can f (ElemArr.empty N) x
  | .arr s => pushMoveArr c can f s x
  | .vec v => do
    let (v, x) ← ElemVec.pushBackMove c can f v x
    .ok (.vec v, x)

/-- HybridVector.hpp 1757-1771. -/
def popBack (h : EHyb E) : Res (EHyb E) :=
  match h with
  | .unset => .ok .unset
  | .arr s => do
    let s ← ElemVec.popBack s
    .ok (.arr s)
  | .vec v => do
    let v ← ElemVec.popBack v
    .ok (.vec v)

/-- HybridVector.hpp 1773-1807: `insert(it, const &)`; a full array computes the new iterator as `begin() - pos` (1789-1793). -/
def insert (c : Cls E) (can : Nat → Bool) (f : Nat) (h : EHyb E) (pos : Nat) (x : E) : Res (EHyb E) :=
  match h with
  | .unset => .ub
  | .arr s =>
    if s.cap > s.size then do
      let s ← ElemArr.insert c s pos x
      .ok (.arr s)
    else do
      let v ← useVector c can f s
      if pos = 0 then
        let v ← ElemVec.insert c can f v 0 x
        .ok (.vec v)
      else .ub
  | .vec v => do
    let v ← ElemVec.insert c can f v pos x
    .ok (.vec v)

/-- HybridVector.hpp 1809-1843: `insert(it, &&)`.  It needs `Vector::insert(it, &&)`, which as written cannot be instantiated (Vector.hpp 785); see
`ElemVec.insertMove` for the reading used here. -/
def insertMove (c : Cls E) (can : Nat → Bool) (f : Nat) (h : EHyb E) (pos : Nat) (x : E) : Res (EHyb E × E) :=
  match h with
  | .unset => .ub
  | .arr s =>
    if s.cap > s.size then do
      let (s, x) ← ElemArr.insertMove c s pos x
      .ok (.arr s, x)
    else do
      let v ← useVector c can f s
      if pos = 0 then
        let (v, x) ← ElemVec.insertMove c can f v 0 x
        .ok (.vec v, x)
      else .ub
  | .vec v => do
    let (v, x) ← ElemVec.insertMove c can f v pos x
    .ok (.vec v, x)

/-- HybridVector.hpp 1894-1927: `emplace` with an argument of the element's type. -/
def emplace (c : Cls E) (can : Nat → Bool) (f : Nat) (h : EHyb E) (pos : Nat) (x : E) : Res (EHyb E) :=
  match h with
  | .unset => .ub
  | .arr s =>
    if s.cap = s.size then do
      let v ← useVector c can f s
      let v ← ElemVec.emplace c can f v pos x
      .ok (.vec v)
    else do
      let s ← ElemArr.emplace c s pos x
      .ok (.arr s)
  | .vec v => do
    let v ← ElemVec.emplace c can f v pos x
    .ok (.vec v)

/-- The tail of HybridVector.hpp 1936-1940 and 1962-1966: an array that became empty is destroyed. -/
def shrinkArr (s : EVec E) : Res (EHyb E) := if s.size = 0 then .ok .unset else .ok (.arr s)

/-- The tail of HybridVector.hpp 1945-1950 and 1971-1976. -/
def shrinkVec (c : Cls E) (N : Nat) (v : EVec E) : Res (EHyb E) :=
  if v.size < N then do
    let s ← useArray c N v
    .ok (.arr s)
  else .ok (.vec v)

/-- HybridVector.hpp 1929-1953. -/
def erase (c : Cls E) (N : Nat) (h : EHyb E) (pos : Nat) : Res (EHyb E) :=
  match h with
  | .unset => .ok .unset
  | .arr s => do
    let s ← ElemArr.erase c s pos
    shrinkArr s
  | .vec v => do
    let v ← ElemVec.erase c v pos
    shrinkVec c N v

/-- HybridVector.hpp 1955-1979. -/
def eraseRange (c : Cls E) (N : Nat) (h : EHyb E) (b e : Nat) : Res (EHyb E) :=
  match h with
  | .unset => .ok .unset
  | .arr s => do
    let s ← ElemArr.eraseRange c s b e
    shrinkArr s
  | .vec v => do
    let v ← ElemVec.eraseRange c v b e
    shrinkVec c N v

/-- HybridVector.hpp 1463-1468: everything is destroyed, and an empty array takes its place. -/
def clean (N : Nat) (h : EHyb E) : Res (EHyb E) := do
  match h with
  | .unset => .ok (.arr (ElemArr.empty N))
  | .arr s => do
    let _ ← ElemVec.clean s
    .ok (.arr (ElemArr.empty N))
  | .vec v => do
    let _ ← ElemVec.clean v
    .ok (.arr (ElemArr.empty N))

/-- HybridVector.hpp 1423-1441. -/
def size : EHyb E → Nat
  | .unset => 0
  | .arr s => s.size
  | .vec v => v.size

/-- `operator[]` (1369-1384) followed by reading the string. -/
def textAt {α : Type} (h : EHyb (Str α)) (i : Nat) : Res (List α) :=
  match h with
  | .unset => .ub
  | .arr s => do
    let x ← obj s.mem i
    x.chars
  | .vec v => do
    let x ← obj v.mem i
    x.chars

end Flame.ElemHyb
