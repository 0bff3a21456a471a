import Verif.List.Props
import Verif.Vector.ElemModel

/-!
# Model of `List<T>` for elements that bring their own operations (List.hpp)

The nodes are those of `Verif/List/Model.lean`; an object enters a node through `Node(ConstReference)` or `Node(MoveReference)` (List.hpp
342-350), which both initialise the member from a named reference: by copy construction.  No function of the list assigns to or moves an object:
the copy assignment (413-444) cannot be instantiated (`Iterator it = list.begin()` for a const list).

Simplification: the objects of a range, and of a list that is copied, are copied before the first node is linked; the copies are made of objects
the list operation does not touch, so the order cannot be observed.
-/

namespace Flame.ListSpec

/-- The same call with other arguments. -/
def Op.map {α β : Type} (f : α → β) : Op α → Op β
  | .pushBack x => .pushBack (f x)
  | .pushFront x => .pushFront (f x)
  | .insert i x => .insert i (f x)
  | .insertRange i xs => .insertRange i (xs.map f)
  | .popBack => .popBack
  | .popFront => .popFront
  | .erase i => .erase i
  | .eraseRange i j => .eraseRange i j
  | .clean => .clean

/-- The objects a call is given. -/
def Op.args {α : Type} : Op α → List α
  | .pushBack x => [x]
  | .pushFront x => [x]
  | .insert _ x => [x]
  | .insertRange _ xs => xs
  | _ => []

end Flame.ListSpec

namespace Flame.ElemList
open Flame ElemVec LL ListSpec

variable {E : Type}

/-- What the nodes get instead of the arguments: 614-616, 632-634 (pushBack), 668-670, 686-688 (pushFront), 722-736, 752-766 (insert): one copy;
793-805 (range): the loop variable is a copy, the node's object a copy of it. -/
def taken (c : Cls E) : Op E → Res (Op E)
  | .pushBack x => do
    let y ← c.copy x
    .ok (.pushBack y)
  | .pushFront x => do
    let y ← c.copy x
    .ok (.pushFront y)
  | .insert i x => do
    let y ← c.copy x
    .ok (.insert i y)
  | .insertRange i xs => do
    let ys ← copyAll c xs
    let ys ← copyAll c ys
    .ok (.insertRange i ys)
  | .popBack => .ok .popBack
  | .popFront => .ok .popFront
  | .erase i => .ok (.erase i)
  | .eraseRange i j => .ok (.eraseRange i j)
  | .clean => .ok .clean

/-- One call on list object `o`. -/
def step (c : Cls E) (o : Nat) (m : Mem E) (op : Op E) : Res (Mem E) := do
  let op ← taken c op
  LL.step o m op

/-- 632-648: `pushBack(MoveReference)`: (memory, argument afterwards): the named reference is copied. -/
def pushBackMove (c : Cls E) (o : Nat) (m : Mem E) (x : E) : Res (Mem E × E) := do
  let y ← c.copy x
  let m ← LL.pushBack m o y
  .ok (m, x)

/-- 686-702: `pushFront(MoveReference)`. -/
def pushFrontMove (c : Cls E) (o : Nat) (m : Mem E) (x : E) : Res (Mem E × E) := do
  let y ← c.copy x
  let m ← LL.pushFront m o y
  .ok (m, x)

/-- 752-780: `insert(it, MoveReference)`: `construct(move(object))` ends in `Node(MoveReference)`, which copies, too. -/
def insertMove (c : Cls E) (o : Nat) (m : Mem E) (i : Nat) (x : E) : Res (Mem E × E) := do
  let y ← c.copy x
  let it ← iterAt m o i
  let m ← LL.insert (m.fresh + 2) m o it y
  .ok (m, x)

/-- 366-377: copy constructor of object `d` from `s`: the loop variable is a copy, the node's object a copy of it. -/
def copyCtor (c : Cls E) (fuel : Nat) (m : Mem E) (d s : Nat) : Res (Mem E) := do
  let n ← LL.size fuel m s
  if n ≠ 0 then
    let xs ← LL.toList fuel m s
    let ys ← copyAll c xs
    let ys ← copyAll c ys
    LL.ofInit m d ys
  else .ok (LL.construct m d)

/-- 392-400: construction from an initializer list holding `xs`: again two copies. -/
def ofInit (c : Cls E) (m : Mem E) (d : Nat) (xs : List E) : Res (Mem E) := do
  let ys ← copyAll c xs
  let ys ← copyAll c ys
  LL.ofInit m d ys

end Flame.ElemList
