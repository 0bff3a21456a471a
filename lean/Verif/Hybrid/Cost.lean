import Verif.Hybrid.Model
import Verif.Vector.Cost

/-!
# C190: what pushing and taking out cost in a `HybridVector`

`HybridVector::pushBack`, `popBack` and `erase` (HybridVector.hpp 1666-1771, 1929-1953) with the switches between array and vector
(1989-2053), counted as in `Verif/Vector/Cost.lean`: requests to the allocator and elements carried from one place to another.
Simplification: the move of the finished array into the variant (2015) is not counted; it carries the same elements once more.
-/

namespace Flame
namespace HCost
open Cost
variable {α : Type} (triv : Bool) (can : Nat → Bool) (N : Nat) (f : Nat)

/-- HybridVector.hpp 2023-2053, array branch: one block of twice the size, every element carried over. -/
def toVector (s : SVec α) : Res (Vec α × Work) := do
  let xs ← s.toList
  let r ← pushes can f ((Vec.empty : Vec α).reserve can (s.size * 2)) xs
  .ok (r.1, ((reserveWork (Vec.empty : Vec α) (s.size * 2)).add r.2.down).add ⟨0, xs.length⟩)

/-- HybridVector.hpp 1989-2021, vector branch: the elements carried into a new array. -/
def toArray (v : Vec α) : Res (SVec α × Work) := do
  let xs ← v.buf.getRange 0 (if v.size > N then N else v.size)
  let s ← (SVec.empty N).pushBackList xs
  .ok (s, ⟨0, xs.length⟩)

/-- Array branch of HybridVector.hpp 1666-1755. -/
def pushArr (s : SVec α) (x : α) : Res (HVec α × Work) :=
  if s.cap > s.size then do
    let s ← s.pushBack x
    .ok (.arr s, ⟨0, 0⟩)
  else do
    let r ← toVector can f s
    let q ← push can f r.1 x
    .ok (.vec q.1, r.2.add q.2.down)

/-- HybridVector.hpp 1666-1694. -/
def hpush (h : HVec α) (x : α) : Res (HVec α × Work) :=
  match h with
  | .unset => pushArr can f (SVec.empty N) x
  | .arr s => pushArr can f s x
  | .vec v => do
    let q ← push can f v x
    .ok (.vec q.1, q.2.down)

/-- HybridVector.hpp 1757-1771: nothing is carried. -/
def hpop (h : HVec α) : Res (HVec α × Work) := do
  let h ← HVec.popBack triv h
  .ok (h, ⟨0, 0⟩)

/-- HybridVector.hpp 1929-1953: the elements behind the place move down by one (Array.hpp 931-947, Vector.hpp 880-896), and a vector
that became smaller than the array goes back into it. -/
def herase (h : HVec α) (pos : Nat) : Res (HVec α × Work) :=
  match h with
  | .unset => .ok (.unset, ⟨0, 0⟩)
  | .arr s => do
    let t ← s.erase triv pos
    let h ← HVec.shrinkArr t
    .ok (h, ⟨0, s.size - (pos + 1)⟩)
  | .vec v => do
    let t ← v.erase triv pos
    if t.size < N then do
      let r ← toArray N t
      .ok (.arr r.1, (⟨0, v.size - (pos + 1)⟩ : Work).add r.2)
    else .ok (.vec t, ⟨0, v.size - (pos + 1)⟩)

/-- A call on the container. -/
inductive Op (α : Type) where
  | push (x : α)
  | pop
  | erase (p : Nat)
  deriving Repr

/-- One call and its work. -/
def cstep (h : HVec α) : Op α → Res (HVec α × Work)
  | .push x => hpush can N f h x
  | .pop => hpop triv h
  | .erase p => herase triv N h p

/-- Calls one after the other; the work adds up. -/
def crun : HVec α → List (Op α) → Res (HVec α × Work)
  | h, [] => .ok (h, ⟨0, 0⟩)
  | h, o :: os => do
    let r ← cstep triv can N f h o
    let q ← crun r.1 os
    .ok (q.1, r.2.add q.2)

end HCost
end Flame
