import Verif.Hybrid.Props
import Verif.Array.Tally

/-!
# Constructor and destructor calls of `HybridVector` (include/FlameIDE/Templates/HybridVector.hpp)

The functions of `Verif/Hybrid/Model.lean` again, with the same control flow, carrying the number of element objects constructed and the
number of destructor calls, including those of the container that is left when the storage is switched.
-/

namespace Flame
namespace HVec
variable {α : Type} (triv : Bool) (can re : Nat → Bool) (N : Nat) (f : Nat)

/-- Variant.hpp 541-549, 329-342: `container.reset()` runs the destructor of the container held: Array.hpp 502-507, Vector.hpp
461-466. -/
def resetT (h : HVec α) (t : Tally) : Res (HVec α × Tally) :=
  match h with
  | .unset => .ok (.unset, t)
  | .arr s => do
    let r ← s.cleanT triv t
    .ok (.unset, r.2)
  | .vec v => do
    let r ← v.cleanT triv t
    .ok (.unset, r.2)

/-- HybridVector.hpp 2023-2053, array branch: the elements are constructed in the local vector by move, `reset()` destroys those of the
array, and moving the local vector into `container` moves its pointers (Vector.hpp 429-437). -/
def toVectorT (s : SVec α) (t : Tally) : Res (Vec α × Tally) := do
  let xs ← s.toList
  let v := (Vec.empty : Vec α).reserveT can re (s.size * 2) t
  let r ← Vec.pushBackListT can re f v.1 xs v.2
  let d ← resetT triv (.arr s) r.2
  .ok (r.1, d.2)

/-- HybridVector.hpp 1989-2021, vector branch: the elements are constructed in the local array by move, `reset()` destroys those of the
vector; `container = move(array)` constructs them in a temporary `Variant` (Variant.hpp 473-480) and in `container` (500-510), and the
temporary and the local array are destroyed. -/
def toArrayT (v : Vec α) (t : Tally) : Res (SVec α × Tally) := do
  let xs ← v.buf.getRange 0 (if v.size > N then N else v.size)
  let a ← (SVec.empty N).pushBackListT xs t
  let d ← resetT triv (.vec v) a.2
  let tmp ← (SVec.empty N).pushBackListT xs d.2
  let c ← (SVec.empty N).pushBackListT xs tmp.2
  let d ← tmp.1.cleanT triv c.2
  let d ← a.1.cleanT triv d.2
  .ok (c.1, d.2)

/-- Array branch of HybridVector.hpp 1666-1755. -/
def pushBackArrT (s : SVec α) (x : α) (t : Tally) : Res (HVec α × Tally) :=
  if s.cap > s.size then do
    let r ← s.pushBackT x t
    .ok (.arr r.1, r.2)
  else do
    let r ← toVectorT triv can re f s t
    let r ← r.1.pushBackT can re f x r.2
    .ok (.vec r.1, r.2)

/-- HybridVector.hpp 1666-1755. -/
def pushBackT (h : HVec α) (x : α) (t : Tally) : Res (HVec α × Tally) :=
  match h with
  | .unset => pushBackArrT triv can re f (SVec.empty N) x t
  | .arr s => pushBackArrT triv can re f s x t
  | .vec v => do
    let r ← v.pushBackT can re f x t
    .ok (.vec r.1, r.2)

/-- HybridVector.hpp 1757-1771. -/
def popBackT (h : HVec α) (t : Tally) : Res (HVec α × Tally) :=
  match h with
  | .unset => .ok (.unset, t)
  | .arr s => do
    let r ← s.popBackT triv t
    .ok (.arr r.1, r.2)
  | .vec v => do
    let r ← v.popBackT triv t
    .ok (.vec r.1, r.2)

/-- HybridVector.hpp 1773-1843. -/
def insertT (h : HVec α) (pos : Nat) (x : α) (t : Tally) : Res (HVec α × Tally) :=
  match h with
  | .unset => .ub
  | .arr s =>
    if s.cap > s.size then do
      let r ← s.insertT triv pos x t
      .ok (.arr r.1, r.2)
    else do
      let r ← toVectorT triv can re f s t
      if pos = 0 then
        let r ← r.1.insertT triv can re f 0 x r.2
        .ok (.vec r.1, r.2)
      else .ub
  | .vec v => do
    let r ← v.insertT triv can re f pos x t
    .ok (.vec r.1, r.2)

/-- HybridVector.hpp 1894-1927. -/
def emplaceT (h : HVec α) (pos : Nat) (x : α) (t : Tally) : Res (HVec α × Tally) :=
  match h with
  | .unset => .ub
  | .arr s =>
    if s.cap = s.size then do
      let r ← toVectorT triv can re f s t
      let r ← r.1.emplaceT triv can re f pos x r.2
      .ok (.vec r.1, r.2)
    else do
      let r ← s.emplaceT triv pos x t
      .ok (.arr r.1, r.2)
  | .vec v => do
    let r ← v.emplaceT triv can re f pos x t
    .ok (.vec r.1, r.2)

/-- HybridVector.hpp 1845-1892. -/
def insertRangeT (h : HVec α) (pos : Nat) (xs : List α) (t : Tally) : Res (HVec α × Tally) :=
  match h with
  | .unset => .ok (.unset, t)
  | .arr s =>
    if xs.length < s.cap - s.size then do
      let r ← s.insertRangeT triv pos xs t
      .ok (.arr r.1, r.2)
    else do
      let r ← toVectorT triv can re f s t
      if pos = 0 then
        let r ← r.1.insertRangeT triv can re f 0 xs r.2
        .ok (.vec r.1, r.2)
      else .ub
  | .vec v => do
    let r ← v.insertRangeT triv can re f pos xs t
    .ok (.vec r.1, r.2)

/-- The tail of HybridVector.hpp 1936-1940 and 1962-1966: an array that became empty is reset. -/
def shrinkArrT (s : SVec α) (t : Tally) : Res (HVec α × Tally) := if s.size = 0 then resetT triv (.arr s) t else .ok (.arr s, t)

/-- The tail of HybridVector.hpp 1945-1950 and 1971-1976. -/
def shrinkVecT (v : Vec α) (t : Tally) : Res (HVec α × Tally) :=
  if v.size < N then do
    let r ← toArrayT triv N v t
    .ok (.arr r.1, r.2)
  else .ok (.vec v, t)

/-- HybridVector.hpp 1929-1953. -/
def eraseT (h : HVec α) (pos : Nat) (t : Tally) : Res (HVec α × Tally) :=
  match h with
  | .unset => .ok (.unset, t)
  | .arr s => do
    let r ← s.eraseT triv pos t
    shrinkArrT triv r.1 r.2
  | .vec v => do
    let r ← v.eraseT triv pos t
    shrinkVecT triv N r.1 r.2

/-- HybridVector.hpp 1955-1979. -/
def eraseRangeT (h : HVec α) (b e : Nat) (t : Tally) : Res (HVec α × Tally) :=
  match h with
  | .unset => .ok (.unset, t)
  | .arr s => do
    let r ← s.eraseRangeT triv b e t
    shrinkArrT triv r.1 r.2
  | .vec v => do
    let r ← v.eraseRangeT triv b e t
    shrinkVecT triv N r.1 r.2

/-- HybridVector.hpp 1463-1468: `reset`, then an empty array. -/
def cleanT (h : HVec α) (t : Tally) : Res (HVec α × Tally) := do
  let r ← resetT triv h t
  .ok (.arr (SVec.empty N), r.2)

/-- One call. -/
def stepT (s : HVec α × Tally) : HybSpec.Op α → Res (HVec α × Tally)
  | .pushBack x => pushBackT triv can re N f s.1 x s.2
  | .popBack => popBackT triv s.1 s.2
  | .insert p x => insertT triv can re f s.1 p x s.2
  | .emplace p x => emplaceT triv can re f s.1 p x s.2
  | .insertRange p xs => insertRangeT triv can re f s.1 p xs s.2
  | .erase p => eraseT triv N s.1 p s.2
  | .eraseRange b e => eraseRangeT triv N s.1 b e s.2
  | .clean => cleanT triv N s.1 s.2
  | .reset => resetT triv s.1 s.2

/-- HybridVector.hpp 341, Variant.hpp 482-486: the destructor resets the container. -/
def destructT (s : HVec α × Tally) : Res Tally :=
  match resetT triv s.1 s.2 with
  | .ok r => .ok r.2
  | .ub => .ub
  | .loop => .loop

end HVec
end Flame
