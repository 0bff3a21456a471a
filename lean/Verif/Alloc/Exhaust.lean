import Verif.String.Memory
import Verif.List.Model
import Verif.Vector.Model

/-!
# `List` and `Vector` construction when memory runs out

`mem` says whether the allocation the function makes succeeds.  `ObjectAllocator::construct` (Allocator/ObjectAllocator.hpp 78-115) and
`ArrayAllocator::createArray`/`construct` (Allocator/ArrayAllocator.hpp 100-123) answer null when it does not.
-/

namespace Flame.LL
variable {α : Type}

/-- `allocator.construct(object)`: the node or null. -/
def allocMem (mem : Bool) (m : Mem α) (x : α) : Mem α × Ptr := if mem then (alloc m x, .node m.fresh) else (m, .null)

/-- List.hpp 614-630, 632-648, 650-666 (pushBack / emplaceBack): the result of `construct` is not tested. -/
def pushBackMem (mem : Bool) (m : Mem α) (o : Nat) (x : α) : Res (Mem α) := do
  let (m, p) := allocMem mem m x
  if m.head o ≠ .null then
    let m ← setPrev m p (m.tail o)
    let m ← setNext m (m.tail o) p
    let t ← load m (m.tail o)
    let m := setTail m o t.next
    updateTailLinks m o
  else
    updateLinks (setTail (setHead m o p) o p) o

/-- List.hpp 668-684, 686-702, 704-720 (pushFront / emplaceFront). -/
def pushFrontMem (mem : Bool) (m : Mem α) (o : Nat) (x : α) : Res (Mem α) := do
  let (m, p) := allocMem mem m x
  if m.head o ≠ .null then
    let m ← setPrev m (m.head o) p
    let m ← setNext m p (m.head o)
    let h ← load m (m.head o)
    let m := setHead m o h.prev
    updateHeadLinks m o
  else
    updateLinks (setTail (setHead m o p) o p) o

/-- List.hpp 722-750, 752-780, 844-871 (insert / emplace). -/
def insertMem (mem : Bool) (fuel : Nat) (m : Mem α) (o : Nat) (it : Ptr) (x : α) : Res (Mem α) := do
  let s ← size fuel m o
  if s = 0 then
    let (m, p) := allocMem mem m x
    .ok (setTail (setHead m o p) o p)
  else if it = m.head o then pushFrontMem mem m o x
  else if it = .last o then pushBackMem mem m o x
  else
    let (m, p) := allocMem mem m x
    let c ← load m it
    let m ← setNext m c.prev p
    let m ← setPrev m p c.prev
    let m ← setPrev m it p
    setNext m p it

end Flame.LL

namespace Flame.Vec
variable {α : Type u}

/-- The storage `createArray(n)` gives: `n` raw elements, or nothing behind a null pointer. -/
def created (mem : Bool) (n : Nat) : Cells α := if mem then List.replicate n .raw else []

/-- Vector.hpp 396-405, 407-416: copy constructors: 400 and 411 do not test the result. -/
def copyMem (mem : Bool) (v : Vec α) : Res (Vec α) := do
  let xs ← v.buf.getRange 0 v.size
  let b ← Cells.constructList (created mem v.size) 0 xs
  .ok ⟨b, v.size, v.size⟩

/-- Vector.hpp 446-459: initializer-list constructor: 451 does not test the result. -/
def ofInitListMem (mem : Bool) (xs : List α) : Res (Vec α) := do
  let b ← Cells.constructList (created mem xs.length) 0 xs
  .ok ⟨b, xs.length, xs.length⟩

/-- Vector.hpp 439-444: `Vector(size)`: `construct` answers null and makes nothing, `tail` is nevertheless `head + vectorCapacity`. -/
def ofSizeMem (mem : Bool) (n : Nat) : Vec α := ⟨if mem then List.replicate (n * 3 / 2) .junk else [], n * 3 / 2, n * 3 / 2⟩

end Flame.Vec
