import Verif.Vector.ElemModel

/-!
# A fixed-capacity `Array` (vector mode) whose elements bring their own operations

Array.hpp 430-980 over the cells and element classes of `Verif/Vector/ElemModel.lean`.  The memory is inside the object; `cap` is
`ARRAY_CAPACITY`.  Every operation that finds no room returns without doing anything.

Simplifications as there: arguments are not the array's own elements, iterators outside `[begin, end]` are `ub`.
-/

namespace Flame.ElemArr
open Flame ElemVec

variable {E : Type u}

/-- Array.hpp 434-438. -/
def empty (n : Nat) : EVec E := ⟨List.replicate n none, n, 0⟩

/-- Array.hpp 770-778: `pushBack(const &)`; 791-797: `emplaceBack` with an argument of the element's type. -/
def pushBack (c : Cls E) (v : EVec E) (x : E) : Res (EVec E) :=
  if v.size < v.cap then do
    let y ← c.copy x
    let b ← put v.mem v.size y
    .ok ⟨b, v.cap, v.size + 1⟩
  else .ok v

/-- Array.hpp 780-789: `pushBack(&&)`; second component: the argument afterwards. -/
def pushBackMove (c : Cls E) (v : EVec E) (x : E) : Res (EVec E × E) :=
  if v.size < v.cap then do
    let b ← put v.mem v.size (c.move x).1
    .ok (⟨b, v.cap, v.size + 1⟩, (c.move x).2)
  else .ok (v, x)

/-- Array.hpp 809-831: `insert(it, const &)`. -/
def insert (c : Cls E) (v : EVec E) (pos : Nat) (x : E) : Res (EVec E) :=
  if v.size < pos then .ub
  else if v.size < v.cap then
    if pos = v.size then pushBack c v x
    else do
      let b ← open1 c v pos
      let b ← assignAll c pos [x] b
      .ok ⟨b, v.cap, v.size + 1⟩
  else .ok v

/-- Array.hpp 833-857: `insert(it, &&)`. -/
def insertMove (c : Cls E) (v : EVec E) (pos : Nat) (x : E) : Res (EVec E × E) :=
  if v.size < pos then .ub
  else if v.size < v.cap then
    if pos = v.size then pushBackMove c v x
    else do
      let b ← open1 c v pos
      let d ← obj b pos
      let (d, x) ← c.massign d x
      let b ← put b pos d
      .ok (⟨b, v.cap, v.size + 1⟩, x)
  else .ok (v, x)

/-- Array.hpp 906-929: `emplace` with an argument of the element's type: the moved-from object is destroyed (923) and the new one constructed. -/
def emplace (c : Cls E) (v : EVec E) (pos : Nat) (x : E) : Res (EVec E) :=
  if v.size < pos then .ub
  else if v.size < v.cap then
    if pos = v.size then pushBack c v x
    else do
      let b ← open1 c v pos
      let b ← destroy 1 pos b
      let y ← c.copy x
      let b ← put b pos y
      .ok ⟨b, v.cap, v.size + 1⟩
  else .ok v

/-- The loops of Array.hpp 443-446, 453-454, 513-517, 525-529, 688-689, 872-875. -/
def pushAll (c : Cls E) : EVec E → List E → Res (EVec E)
  | v, [] => .ok v
  | v, x :: xs => do
    let v ← pushBack c v x
    pushAll c v xs

/-- The loops of Array.hpp 460-463, 469-471, 539-543, 551-555: the elements afterwards in the second component. -/
def pushAllMove (c : Cls E) : EVec E → List E → Res (EVec E × List E)
  | v, [] => .ok (v, [])
  | v, x :: xs => do
    let (v, x) ← pushBackMove c v x
    let (v, xs) ← pushAllMove c v xs
    .ok (v, x :: xs)

/-- Array.hpp 859-904: `insert(it, itBegin, itEnd)`. -/
def insertRange (c : Cls E) (v : EVec E) (pos : Nat) (xs : List E) : Res (EVec E) :=
  if v.size < pos then .ub
  else if xs.length = 0 then .ok v
  else if xs.length + v.size ≤ v.cap then
    if pos = v.size then pushAll c v xs
    else do
      let b ← fill c xs.length v.size v.mem
      let b ← shiftUp c pos xs.length (v.size - pos) b
      let b ← assignAll c pos xs b
      .ok ⟨b, v.cap, v.size + xs.length⟩
  else .ok v

/-- Array.hpp 799-807 and 931-947: the same statements as Vector.hpp 738-743 and 880-896. -/
def erase (c : Cls E) (v : EVec E) (pos : Nat) : Res (EVec E) := ElemVec.erase c v pos

/-- Array.hpp 949-969. -/
def eraseRange (c : Cls E) (v : EVec E) (b e : Nat) : Res (EVec E) :=
  if v.size < b ∨ v.size < e then .ub
  else if e = b + v.size then ElemVec.clean v
  else if e < b + v.size ∧ b < e then do
    let m ← destroy (e - b) b v.mem
    let m ← shiftDown c (v.size - e) e b m
    .ok ⟨m, v.cap, v.size - (e - b)⟩
  else .ok v

/-- Array.hpp 440-455: copy constructor; for a source of another capacity `n` the check of 444. -/
def copyOf (c : Cls E) (n : Nat) (src : EVec E) : Res (EVec E) := do
  let xs ← elems src.mem 0 src.size
  if xs.length ≤ n then pushAll c (empty n) xs else .ok (empty n)

/-- Writing the elements' states back to the cells from `i` on. -/
def putAll : Nat → List E → Slots E → Slots E
  | _, [], b => b
  | i, x :: xs, b => putAll (i + 1) xs (b.set i (some x))

/-- Array.hpp 457-472: move constructor: (new array, source afterwards). -/
def moveOf (c : Cls E) (n : Nat) (src : EVec E) : Res (EVec E × EVec E) := do
  let xs ← elems src.mem 0 src.size
  if xs.length ≤ n then do
    let (v, ys) ← pushAllMove c (empty n) xs
    .ok (v, ⟨putAll 0 ys src.mem, src.cap, src.size⟩)
  else .ok (empty n, src)

/-- Array.hpp 508-531: copy assignment from another array (self assignment does nothing, 524). -/
def assign (c : Cls E) (v src : EVec E) : Res (EVec E) := do
  let xs ← elems src.mem 0 src.size
  if v.cap < xs.length then .ok v
  else do
    let v ← ElemVec.clean v
    pushAll c v xs

/-- Array.hpp 533-557: move assignment from another array. -/
def moveAssign (c : Cls E) (v src : EVec E) : Res (EVec E × EVec E) := do
  let xs ← elems src.mem 0 src.size
  if v.cap < xs.length then .ok (v, src)
  else do
    let v ← ElemVec.clean v
    let (v, ys) ← pushAllMove c v xs
    .ok (v, ⟨putAll 0 ys src.mem, src.cap, src.size⟩)

end Flame.ElemArr
