import Verif.String.Model
import Verif.Vector.Model

/-!
# A `Vector` whose elements bring their own operations

`Verif/Vector/Model.lean` takes an element's construction, assignment and destruction as given: assigning a value makes the element that
value.  Here the element class is a parameter, so that a class whose own operations have bugs (`String`) can be put into the vector.

A cell of the allocation either holds a live object or not (`none`: raw storage, or an object that was destroyed).  Calling a member
function of an object that is not alive is `ub`.

Simplifications: arguments are not the vector's own elements (see C55, C135 for those); iterators outside `[begin, end]` are `ub`;
inside the other members `reserve` has the outcome of the `realloc` branch (Vector.hpp 596-602), which carries the objects over bytewise:
right for `String`, which keeps no pointer into itself.  The other branch is `reserveMove` (`C195_reserve_generic`: the same elements).
-/

namespace Flame.ElemVec
open Flame

/-- The special members of an element class: default constructor, copy constructor, move constructor (new object, source afterwards),
copy assignment (target, source), move assignment (target, source; both afterwards). -/
structure Cls (E : Type u) where
  dflt : E
  copy : E → Res E
  move : E → E × E
  assign : E → E → Res E
  massign : E → E → Res (E × E)

/-- String.hpp 188-193 (default), 195-209 (copy), 211-221 (move), 246-266 (copy assignment), 268-286 (move assignment), as modelled in
`Verif/String/Model.lean`.  `f + 2` bounds the recursion of copy assignment, which makes at most one recursive call. -/
def strCls {α : Type} (z : α) (f : Nat) : Cls (Str α) where
  dflt := Str.empty
  copy := Str.copy z
  move := Str.moveCtor
  assign := Str.assign z (f + 2)
  massign := Str.moveAssign z

/-- The memory of the vector, cell by cell. -/
abbrev Slots (E : Type u) := List (Option E)

variable {E : Type u}

/-- The live object in a cell. -/
def obj (b : Slots E) (i : Nat) : Res E :=
  match b[i]? with
  | some (some e) => .ok e
  | _ => .ub

/-- Placement new (or the new state of a live object) in a cell of the allocation. -/
def put (b : Slots E) (i : Nat) (e : E) : Res (Slots E) := if i < b.length then .ok (b.set i (some e)) else .ub

/-- `*dst = move(*src)` inside the allocation (Vector.hpp 761, 793, 832, 867, 893, 916). -/
def slide (c : Cls E) (b : Slots E) (dst src : Nat) : Res (Slots E) := do
  let d ← obj b dst
  let s ← obj b src
  let (d, s) ← c.massign d s
  let b ← put b dst d
  put b src s

/-- The backward loops of Vector.hpp 757-761, 788-793, 826-832, 860-866: the cells `pos .. pos + n - 1` move up by `gap`, last one first. -/
def shiftUp (c : Cls E) (pos gap : Nat) : Nat → Slots E → Res (Slots E)
  | 0, b => .ok b
  | n + 1, b => do
    let b ← slide c b (pos + n + gap) (pos + n)
    shiftUp c pos gap n b

/-- The forward loops of Vector.hpp 891-893 and 914-916: `n` cells from `src` on move to `dst` on, first one first. -/
def shiftDown (c : Cls E) : Nat → Nat → Nat → Slots E → Res (Slots E)
  | 0, _, _, b => .ok b
  | n + 1, src, dst, b => do
    let b ← slide c b dst src
    shiftDown c n (src + 1) (dst + 1) b

/-- The destructor calls of Vector.hpp 610-613 and 908-910 over `n` cells from `i` on. -/
def destroy : Nat → Nat → Slots E → Res (Slots E)
  | 0, _, b => .ok b
  | n + 1, i, b => do
    let _ ← obj b i
    destroy n (i + 1) (b.set i none)

/-- Default construction of `n` cells from `i` on (Vector.hpp 755, 786, 823-824, 858). -/
def fill (c : Cls E) : Nat → Nat → Slots E → Res (Slots E)
  | 0, _, b => .ok b
  | n + 1, i, b => do
    let b ← put b i c.dflt
    fill c n (i + 1) b

/-- Copy assignment of a range to the cells from `i` on (Vector.hpp 834-838). -/
def assignAll (c : Cls E) : Nat → List E → Slots E → Res (Slots E)
  | _, [], b => .ok b
  | i, x :: xs, b => do
    let d ← obj b i
    let d ← c.assign d x
    let b ← put b i d
    assignAll c (i + 1) xs b

/-- Vector.hpp 378-380: memory (`head`), `vectorCapacity` and `tail - head`. -/
structure EVec (E : Type u) where
  mem : Slots E
  cap : Nat
  size : Nat

/-- Vector.hpp 389-394. -/
def EVec.empty : EVec E := ⟨[], 0, 0⟩

/-- Vector.hpp 922-933. -/
def nextCap (v : EVec E) : Nat := if v.cap ≠ 0 then v.cap * 3 / 2 else 8

/-- Vector.hpp 568-604: `can n` says whether the allocator has room for `n` elements. -/
def reserve (can : Nat → Bool) (v : EVec E) (n : Nat) : EVec E :=
  if v.cap < n then
    if can n then ⟨v.mem ++ List.replicate (n - v.mem.length) none, n, v.size⟩ else v
  else v

/-- Vector.hpp 698-711: `pushBack(const &)`. -/
def pushBack (c : Cls E) (can : Nat → Bool) : Nat → EVec E → E → Res (EVec E)
  | 0, _, _ => .loop
  | f + 1, v, x =>
    if v.size ≠ v.cap then do
      let y ← c.copy x
      let b ← put v.mem v.size y
      .ok ⟨b, v.cap, v.size + 1⟩
    else pushBack c can f (reserve can v (nextCap v)) x

/-- Vector.hpp 713-723: `pushBack(&&)`; the second component is the argument afterwards. -/
def pushBackMove (c : Cls E) (can : Nat → Bool) : Nat → EVec E → E → Res (EVec E × E)
  | 0, _, _ => .loop
  | f + 1, v, x =>
    if v.size ≠ v.cap then do
      let b ← put v.mem v.size (c.move x).1
      .ok (⟨b, v.cap, v.size + 1⟩, (c.move x).2)
    else pushBackMove c can f (reserve can v (nextCap v)) x

/-- Vector.hpp 738-743. -/
def popBack (v : EVec E) : Res (EVec E) :=
  if v.size ≠ 0 then do
    let b ← destroy 1 (v.size - 1) v.mem
    .ok ⟨b, v.cap, v.size - 1⟩
  else .ok v

/-- Vector.hpp 606-615. -/
def clean (v : EVec E) : Res (EVec E) := do
  let b ← destroy v.size 0 v.mem
  .ok ⟨b, v.cap, 0⟩

/-- Vector.hpp 755-761 (786-793, 858-866): default object behind the last, everything from `pos` on one up. -/
def open1 (c : Cls E) (v : EVec E) (pos : Nat) : Res (Slots E) := do
  let b ← fill c 1 v.size v.mem
  shiftUp c pos 1 (v.size - pos) b

/-- Vector.hpp 745-773: `insert(it, const &)`: copy assignment to the cell that was opened (763). -/
def insert (c : Cls E) (can : Nat → Bool) : Nat → EVec E → Nat → E → Res (EVec E)
  | 0, _, _, _ => .loop
  | f + 1, v, pos, x =>
    if v.size < pos then .ub
    else if v.size < v.cap then
      if pos = v.size then pushBack c can (f + 1) v x
      else do
        let b ← open1 c v pos
        let b ← assignAll c pos [x] b
        .ok ⟨b, v.cap, v.size + 1⟩
    else insert c can f (reserve can v (nextCap v)) pos x

/-- Vector.hpp 775-804: `insert(it, &&)`: move assignment to the cell that was opened (795); a full vector retries with the argument as an
lvalue (802), that is through `insert(it, const &)`.  As written this function cannot be instantiated for any element class: line 785 calls
`placementNew<Type>(tail)`, and `placementNew` (Utils.hpp 68-76) takes two arguments.  Simplification: the line is read as `emplaceNew<Type>(tail)`, as in
`insert(it, const &)` (755) and in Array.hpp 845. -/
def insertMove (c : Cls E) (can : Nat → Bool) (f : Nat) (v : EVec E) (pos : Nat) (x : E) : Res (EVec E × E) :=
  if v.size < pos then .ub
  else if v.size < v.cap then
    if pos = v.size then pushBackMove c can (f + 1) v x
    else do
      let b ← open1 c v pos
      let d ← obj b pos
      let (d, x) ← c.massign d x
      let b ← put b pos d
      .ok (⟨b, v.cap, v.size + 1⟩, x)
  else do
    let v ← insert c can f (reserve can v (nextCap v)) pos x
    .ok (v, x)

/-- Vector.hpp 849-878: `emplace(it, args...)` with an argument of the element's own type: copy construction in the cell that was
opened (868), or behind the last element (725-736). -/
def emplace (c : Cls E) (can : Nat → Bool) : Nat → EVec E → Nat → E → Res (EVec E)
  | 0, _, _, _ => .loop
  | f + 1, v, pos, x =>
    if v.size < pos then .ub
    else if v.size < v.cap then
      if pos = v.size then pushBack c can (f + 1) v x
      else do
        let b ← open1 c v pos
        let y ← c.copy x
        let b ← put b pos y
        .ok ⟨b, v.cap, v.size + 1⟩
    else emplace c can f (reserve can v (nextCap v)) pos x

/-- Vector.hpp 818-819. -/
def pushAll (c : Cls E) (can : Nat → Bool) (f : Nat) : EVec E → List E → Res (EVec E)
  | v, [] => .ok v
  | v, x :: xs => do
    let v ← pushBack c can f v x
    pushAll c can f v xs

/-- Vector.hpp 806-847: `insert(it, itBegin, itEnd)`. -/
def insertRange (c : Cls E) (can : Nat → Bool) : Nat → EVec E → Nat → List E → Res (EVec E)
  | 0, _, _, _ => .loop
  | f + 1, v, pos, xs =>
    if v.size < pos then .ub
    else if xs.length = 0 then .ok v
    else if xs.length + v.size ≤ v.cap then
      if pos = v.size then pushAll c can (f + 1) v xs
      else do
        let b ← fill c xs.length v.size v.mem
        let b ← shiftUp c pos xs.length (v.size - pos) b
        let b ← assignAll c pos xs b
        .ok ⟨b, v.cap, v.size + xs.length⟩
    else insertRange c can f (reserve can v (v.cap + xs.length)) pos xs

/-- Vector.hpp 880-896: `erase(it)`: the last object is left behind, moved from and not destroyed (894). -/
def erase (c : Cls E) (v : EVec E) (pos : Nat) : Res (EVec E) :=
  if v.size < pos then .ub
  else if pos = v.size then .ok v
  else if pos + 1 = v.size then popBack v
  else do
    let b ← shiftDown c (v.size - (pos + 1)) (pos + 1) pos v.mem
    .ok ⟨b, v.cap, v.size - 1⟩

/-- Vector.hpp 898-920: `erase(itBegin, itEnd)`: the erased objects are destroyed first (908-910) and the rest is then move-assigned to
them (912-916). -/
def eraseRange (c : Cls E) (v : EVec E) (b e : Nat) : Res (EVec E) :=
  if v.size < b ∨ v.size < e then .ub
  else if e < b then .ok v
  else if e - b = v.size then clean v
  else if 0 < e - b then do
    let m ← destroy (e - b) b v.mem
    let m ← shiftDown c (v.size - e) e b m
    .ok ⟨m, v.cap, v.size - (e - b)⟩
  else .ok v

/-- The loop of Vector.hpp 413-415 (401-403): copy construction, one by one. -/
def copyAll (c : Cls E) : List E → Res (List E)
  | [] => .ok []
  | x :: xs => do
    let y ← c.copy x
    let ys ← copyAll c xs
    .ok (y :: ys)

/-- The loop of Vector.hpp 584-589: the objects `i ..` move to a new allocation, and are destroyed one by one. -/
def carry (c : Cls E) : Nat → Nat → Slots E → Slots E → Res (Slots E × Slots E)
  | 0, _, old, new => .ok (old, new)
  | n + 1, i, old, new => do
    let x ← obj old i
    let new ← put new i (c.move x).1
    let old ← put old i (c.move x).2
    let old ← destroy 1 i old
    carry c n (i + 1) old new

/-- Vector.hpp 573-595: `reserve` where the allocation cannot be extended but a new one can be had; the second component is the old
allocation as it is freed (590). -/
def reserveMove (c : Cls E) (v : EVec E) (n : Nat) : Res (EVec E × Slots E) :=
  if v.cap < n then do
    let (old, new) ← carry c v.size 0 v.mem (List.replicate n none)
    .ok (⟨new, n, v.size⟩, old)
  else .ok (v, [])

/-- What iterating over the vector sees: every element, alive. -/
def elems (b : Slots E) : Nat → Nat → Res (List E)
  | _, 0 => .ok []
  | i, n + 1 => do
    let x ← obj b i
    let xs ← elems b (i + 1) n
    .ok (x :: xs)

/-- Vector.hpp 406-416 (396-404): the copy constructor, given that the allocator has room. -/
def copyCtor (c : Cls E) (v : EVec E) : Res (EVec E) := do
  let xs ← elems v.mem 0 v.size
  let ys ← copyAll c xs
  .ok ⟨ys.map some, v.size, v.size⟩

/-- Vector.hpp 428-433: `size * 3 / 2` default constructed objects, all of them elements. -/
def sized (c : Cls E) (n : Nat) : EVec E := ⟨List.replicate (n * 3 / 2) (some c.dflt), n * 3 / 2, n * 3 / 2⟩

/-- Vector.hpp 550-566: default construction behind the last element (558); nothing happens if the capacity is exactly the new size. -/
def resize (c : Cls E) (can : Nat → Bool) : Nat → EVec E → Nat → Res (EVec E)
  | 0, _, _ => .loop
  | f + 1, v, n =>
    if v.size < n then
      if v.cap > n then do
        let b ← fill c (n - v.size) v.size v.mem
        .ok ⟨b, v.cap, n⟩
      else if v.cap < n then resize c can f (reserve can v (nextCap v)) n
      else .ok v
    else .ok v

/-- Vector.hpp 456-474: assignment from a vector of another type with the same elements: everything is destroyed (465), and the source is then
copy-assigned to the destroyed objects (467-471); the size stays what `clean` made it. -/
def assignOther (c : Cls E) (can : Nat → Bool) : Nat → EVec E → List E → Res (EVec E)
  | 0, _, _ => .loop
  | f + 1, v, xs =>
    if v.cap < xs.length then assignOther c can f (reserve can v (xs.length - v.cap)) xs
    else do
      let v ← clean v
      let b ← assignAll c 0 xs v.mem
      .ok ⟨b, v.cap, v.size⟩

/-- The texts seen by `for (auto &s : v)`, each through `begin()..end()` of the string (String.hpp 446-500). -/
def readTexts {α : Type} : List (Str α) → Res (List (List α))
  | [] => .ok []
  | s :: ss => do
    let t ← s.chars
    let ts ← readTexts ss
    .ok (t :: ts)

def texts {α : Type} (v : EVec (Str α)) : Res (List (List α)) := do
  let ss ← elems v.mem 0 v.size
  readTexts ss

end Flame.ElemVec
