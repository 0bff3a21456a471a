import Verif.Circular.Props
import Verif.Vector.ElemModel

/-!
# Model of `CircularArray<T, N>` for elements that bring their own operations (CircularArray.hpp)

The ring is that of `Verif/Circular/Model.lean`; here the objects entering it are made by the element's own copy or move constructor
(`placementNew`, Utils.hpp 363-376, calls exactly that), and the object handed over by rvalue reference is tracked.

Not modelled: the range pushes (378-412; `countIterations` with one argument does not exist, so they do not compile), `emplaceBack` with arguments
(414-418; `forward` without its template argument does not compile; with no argument it does), and the assignments (297-315; no `return`).

Simplification: the objects of an array that is copied are copied before the first is placed; the new array is not visible to them.
-/

namespace Flame.ElemRing
open Flame ElemVec CArr

variable {E : Type}

/-- 355-364: `pushBack(ConstReference)`; the argument is only copied if there is room. -/
def push (c : Cls E) (a : CArr E) (x : E) : Res (CArr E) :=
  if a.size ≠ a.capacity then do
    let y ← c.copy x
    CArr.pushBack a y
  else .ok a

/-- 366-376: `pushBack(MoveReference)`: (array, argument afterwards); the argument is only moved from if there is room. -/
def pushMove (c : Cls E) (a : CArr E) (x : E) : Res (CArr E × E) :=
  if a.size ≠ a.capacity then do
    let (y, x) := c.move x
    let a ← CArr.pushBack a y
    .ok (a, x)
  else .ok (a, x)

/-- 414-418 with no argument: a default object is made, then handed over (and what is left of it destroyed at the end of the statement). -/
def emplaceDefault (c : Cls E) (a : CArr E) : Res (CArr E) := do
  let (a, _) ← pushMove c a c.dflt
  .ok a

/-- 345-353: each loop variable is a copy, destroyed by hand and once more at the end of its scope. -/
def clean (c : Cls E) (a : CArr E) : Res (CArr E) := do
  let xs ← CArr.toList a
  let _ ← copyAll c xs
  CArr.clean false a

/-- 268-276: copy constructor: const iteration, each object copied into the inner `StaticVector`. -/
def copyCtor (c : Cls E) (a : CArr E) : Res (CArr E) := do
  let xs ← CArr.toListConst a
  let ys ← copyAll c xs
  let b ← CArr.place (List.replicate a.buf.length .raw) ys
  .ok ⟨b, 0, a.size, ys.length⟩

/-- The objects `ys` take the places from `p` on along the ring. -/
def putWalk (b : Cells E) (p : Nat) : List E → Cells E
  | [] => b
  | y :: ys => putWalk (b.set p (.live y)) (CIter.inc b.length p).toNat ys

/-- 278-286: move constructor: (new array, source): each object is moved from where it is; head and tail of the source stay. -/
def moveCtor (c : Cls E) (a : CArr E) : Res (CArr E × CArr E) := do
  let xs ← CArr.toList a
  let b ← CArr.place (List.replicate a.buf.length .raw) (xs.map (fun x => (c.move x).1))
  .ok (⟨b, 0, a.size, xs.length⟩, { a with buf := putWalk a.buf a.head (xs.map (fun x => (c.move x).2)) })

/-- What a program does to one array. -/
inductive Act (E : Type) where
  | push (x : E)
  | pushMove (x : E)
  | emplace
  | pop
  | clean

/-- One call. -/
def act (c : Cls E) (a : CArr E) : Act E → Res (CArr E)
  | .push x => push c a x
  | .pushMove x => do
    let (a, _) ← pushMove c a x
    .ok a
  | .emplace => emplaceDefault c a
  | .pop => CArr.popFront false a
  | .clean => clean c a

/-- The same call with another argument. -/
def Act.map {F : Type} (f : E → F) : Act E → Act F
  | .push x => .push (f x)
  | .pushMove x => .pushMove (f x)
  | .emplace => .emplace
  | .pop => .pop
  | .clean => .clean

/-- The objects a call is given. -/
def Act.args : Act E → List E
  | .push x => [x]
  | .pushMove x => [x]
  | _ => []

end Flame.ElemRing
