import Verif.Own.Spec

/-!
# Allocators (Templates/Allocator/*.hpp)

`Heap` is what `malloc`/`realloc`/`free` manage: numbered blocks with a size in bytes.  A block additionally remembers which
objects live in it (`cells i`, the object at bytes `i·sizeof(T) .. (i+1)·sizeof(T)`).  `made` and `gone` count constructor
and destructor calls.  Null is `none`.  The size of the element type is the parameter `sz`; arithmetic on `SizeType` is
modulo `2^64`.  Whether the system has memory left is an argument of every allocation.
-/

namespace Flame.Alloc
open Flame.Own

structure Block (V : Type) where
  /-- size in bytes -/
  bytes : Nat
  /-- the object living at the given index, if any -/
  cells : Nat → Option V

structure Heap (V : Type) where
  blk : Nat → Option (Block V)
  /-- number of the next block -/
  next : Nat
  made : Nat
  gone : Nat

def Heap.empty {V : Type} : Heap V := ⟨fun _ => none, 0, 0, 0⟩

variable {V A : Type}

/-- MallocAllocator.hpp 59-64 `vAllocate`, Interface.hpp 46-49 `allocate`, ProxingAllocator.hpp 56-61 (a proxy passes the call on):
`malloc(size)`; `mem` says whether the system has the memory. -/
def allocate (mem : Bool) (h : Heap V) (size : Nat) : Heap V × Option Nat :=
  if mem then ({ h with blk := upd h.blk h.next (some ⟨size, fun _ => none⟩), next := h.next + 1 }, some h.next) else (h, none)

/-- MallocAllocator.hpp 74-79 `vDeallocate`, Interface.hpp 60-63, ProxingAllocator.hpp 70-75: `free(pointer)`; null is ignored, freeing anything but a
block is undefined. Objects still living in the block are lost. -/
def deallocate (h : Heap V) : Option Nat → Res (Heap V)
  | none => .ok h
  | some p => match h.blk p with
    | none => .ub
    | some _ => .ok { h with blk := upd h.blk p none }

/-- MallocAllocator.hpp 66-72 `vReallocate`, Interface.hpp 53-56, ProxingAllocator.hpp 63-68: `realloc(pointer, size)`.  Null means allocate; size 0 frees the
block and returns null (glibc); the block may move, its first bytes go along (the objects that fit entirely keep living: for types
that may be moved as memory); if there is no memory the block stays as it is. -/
def reallocate (sz : Nat) (mem : Bool) (h : Heap V) : Option Nat → Nat → Res (Heap V × Option Nat)
  | none, size => .ok (allocate mem h size)
  | some p, size => match h.blk p with
    | none => .ub
    | some b =>
      if size = 0 then .ok ({ h with blk := upd h.blk p none }, none)
      else if mem then
        .ok ({ h with
          blk := upd (upd h.blk p none) h.next (some ⟨size, fun i => if (i + 1) * sz ≤ size then b.cells i else none⟩)
          next := h.next + 1 }, some h.next)
      else .ok (h, none)

/-- MallocAllocator.hpp 81-85 `vMaxAllocateSize`: the greatest `SizeType`. -/
def maxAllocateSize : Nat := 2 ^ 64 - 1

/-- `SizeType(sizeof(Type) * count)` in ArrayAllocator.hpp 109, 121, 132: the product modulo `2^64`. -/
def byteCount (sz count : Nat) : Nat := sz * count % 2 ^ 64

/-- Common/Utils.hpp 356-361 `emplaceNew(pointer + i, v)`: an object comes to life at index `i` of block `p`; writing
outside of the block is undefined. -/
def place (sz : Nat) (h : Heap V) (p i : Nat) (v : V) : Res (Heap V) :=
  match h.blk p with
  | none => .ub
  | some b =>
    if (i + 1) * sz ≤ b.bytes then
      .ok { h with blk := upd h.blk p (some { b with cells := upd b.cells i (some v) }), made := h.made + 1 }
    else .ub

/-- `(*iterator).~T()`: destroying where no object lives is undefined. -/
def destroyAt (h : Heap V) (p i : Nat) : Res (Heap V) :=
  match h.blk p with
  | none => .ub
  | some b => match b.cells i with
    | none => .ub
    | some _ => .ok { h with blk := upd h.blk p (some { b with cells := upd b.cells i none }), gone := h.gone + 1 }

/-- ArrayAllocator.hpp 109-114: the loop of `construct`, `k` elements left, the next one at index `i`.  `mk a` is what the
constructor makes of the forwarded arguments `a` and what it leaves of them. -/
def constructLoop (sz : Nat) (mk : A → V × A) (p : Nat) : Nat → Nat → Heap V → A → Res (Heap V × A)
  | 0, _, h, a => .ok (h, a)
  | k + 1, i, h, a => match place sz h p i (mk a).1 with
    | .ok h' => constructLoop sz mk p k (i + 1) h' (mk a).2
    | .ub => .ub
    | .loop => .loop

/-- ArrayAllocator.hpp 100-117 `construct(count, args...)`: result, and what is left of the arguments. -/
def construct (sz : Nat) (mk : A → V × A) (mem : Bool) (h : Heap V) (count : Nat) (a : A) : Res (Heap V × Option Nat × A) :=
  match allocate mem h (byteCount sz count) with
  | (h', none) => .ok (h', none, a)
  | (h', some p) => match constructLoop sz mk p count 0 h' a with
    | .ok (h'', a') => .ok (h'', some p, a')
    | .ub => .ub
    | .loop => .loop

/-- ArrayAllocator.hpp 119-124 `createArray`. -/
def createArray (sz : Nat) (mem : Bool) (h : Heap V) (count : Nat) : Heap V × Option Nat :=
  allocate mem h (byteCount sz count)

/-- ArrayAllocator.hpp 126-137 `reallocateArray`. -/
def reallocateArray (sz : Nat) (mem : Bool) (h : Heap V) (p : Option Nat) (count : Nat) : Res (Heap V × Option Nat) :=
  reallocate sz mem h p (byteCount sz count)

/-- ArrayAllocator.hpp 144-145: the loop of `destroy`; through a null pointer it is undefined. -/
def destroyLoop : Option Nat → Nat → Nat → Heap V → Res (Heap V)
  | _, 0, _, h => .ok h
  | none, _ + 1, _, _ => .ub
  | some p, k + 1, i, h => match destroyAt h p i with
    | .ok h' => destroyLoop (some p) k (i + 1) h'
    | .ub => .ub
    | .loop => .loop

/-- ArrayAllocator.hpp 139-148 `destroy(pointer, count)`: the second component is the pointer variable afterwards. -/
def destroy (h : Heap V) (p : Option Nat) (count : Nat) : Res (Heap V × Option Nat) :=
  match destroyLoop p count 0 h with
  | .ok h' => match deallocate h' p with
    | .ok h'' => .ok (h'', none)
    | .ub => .ub
    | .loop => .loop
  | .ub => .ub
  | .loop => .loop

/-- ArrayAllocator.hpp 150-155 `freeArray`. -/
def freeArray (h : Heap V) (p : Option Nat) : Res (Heap V) := deallocate h p

/-- ObjectAllocator.hpp 78-89 `construct(args...)`. -/
def constructObject (sz : Nat) (mk : A → V × A) (mem : Bool) (h : Heap V) (a : A) : Res (Heap V × Option Nat × A) :=
  match allocate mem h (sz % 2 ^ 64) with
  | (h', none) => .ok (h', none, a)
  | (h', some p) => match place sz h' p 0 (mk a).1 with
    | .ok h'' => .ok (h'', some p, (mk a).2)
    | .ub => .ub
    | .loop => .loop

/-- How a type is copied and moved: the value of the new object, and what is left in the old one. -/
structure Copying (V : Type) where
  copy : V → V
  move : V → V × V

/-- ObjectAllocator.hpp 91-102 `construct(T &&obj)`: `placementNew(pointer, obj)` gets the *name* `obj`, an lvalue, so the overload for
`const T &` (Utils.hpp 370-376) copies. -/
def constructRvalue (sz : Nat) (c : Copying V) (mem : Bool) (h : Heap V) (obj : V) : Res (Heap V × Option Nat × V) :=
  constructObject sz (fun v => (c.copy v, v)) mem h obj

/-- ObjectAllocator.hpp 104-115 `construct(const T &obj)`. -/
def constructLvalue (sz : Nat) (c : Copying V) (mem : Bool) (h : Heap V) (obj : V) : Res (Heap V × Option Nat × V) :=
  constructObject sz (fun v => (c.copy v, v)) mem h obj

/-- ObjectAllocator.hpp 117-124 `destroy(pointer)`. -/
def destroyObject (h : Heap V) : Option Nat → Res (Heap V × Option Nat)
  | none => .ub
  | some p => match destroyAt h p 0 with
    | .ok h' => match deallocate h' (some p) with
      | .ok h'' => .ok (h'', none)
      | .ub => .ub
      | .loop => .loop
    | .ub => .ub
    | .loop => .loop

end Flame.Alloc
