import Verif.BufOwn

/-!
# Model of `Vector` (include/FlameIDE/Templates/Vector.hpp)

State: the allocation `buf` (empty for a null `head`), the field `vectorCapacity` (`cap`) and `tail - head` (`size`).
`head` itself is the start of `buf`; a null `head` is an empty allocation, so every dereference through it is `ub`.

`can n` says whether the allocator can satisfy a (re)allocation of `n` elements (ArrayAllocator.hpp 118-137 over
malloc/realloc).  Simplification: `sizeof(Type) * count` is assumed not to wrap.
`triv`: see `Verif/Buf.lean`.
-/

namespace Flame

/-- Vector.hpp 378-380: `vectorCapacity`, `head` (start of `buf`), `tail` (= head + size). -/
structure Vec (α : Type u) where
  buf : Cells α
  cap : Nat
  size : Nat
  deriving Repr, DecidableEq

namespace Vec
variable {α : Type u}

/-- Vector.hpp 389-394: default constructor. -/
def empty : Vec α := ⟨[], 0, 0⟩

/-- Vector.hpp 921-932: `nextCapacity` (factor 3/2, default 8; factors at lines 20-24). -/
def nextCap (v : Vec α) : Nat := if v.cap ≠ 0 then v.cap * 3 / 2 else 8

/-- Vector.hpp 568-604: `reserve`.  On allocation failure nothing changes.  The `createArray` fallback (576-594) ends in
the same state as the `realloc` branch (596-602) and is not modelled separately. -/
def reserve (can : Nat → Bool) (v : Vec α) (n : Nat) : Vec α :=
  if v.cap < n then
    if can n then { v with buf := v.buf.take n ++ List.replicate (n - v.buf.length) .raw, cap := n } else v
  else v

/-- Vector.hpp 698-711: `pushBack(const&)`; 713-723 (`&&`) and 725-736 (`emplaceBack`) have the same control flow. -/
def pushBack (can : Nat → Bool) : Nat → Vec α → α → Res (Vec α)
  | 0, _, _ => .loop
  | f + 1, v, x =>
    if v.size ≠ v.cap then do
      let b ← v.buf.construct v.size x
      .ok { v with buf := b, size := v.size + 1 }
    else pushBack can f (v.reserve can v.nextCap) x

/-- Vector.hpp 738-743: `popBack`. -/
def popBack (triv : Bool) (v : Vec α) : Res (Vec α) :=
  if v.size ≠ 0 then do
    let b ← v.buf.destroy triv (v.size - 1)
    .ok { v with buf := b, size := v.size - 1 }
  else .ok v

/-- Vector.hpp 606-615: `clean`. -/
def clean (triv : Bool) (v : Vec α) : Res (Vec α) := do
  let b ← v.buf.destroyRange triv 0 v.size
  .ok { v with buf := b, size := 0 }

/-- Vector.hpp 745-773: `insert(it, const&)`.  `object` is assumed not to live inside the vector (see `insertOwn`).
An iterator outside `[begin, end]` is a precondition violation (`ub`).  Line 755 default-constructs the cell at `tail`,
759-761 shift backwards, 763 assigns. -/
def insert (triv : Bool) (can : Nat → Bool) : Nat → Vec α → Nat → α → Res (Vec α)
  | 0, _, _, _ => .loop
  | f + 1, v, pos, x =>
    if v.size < pos then .ub
    else if v.size < v.cap then
      if pos = v.size then pushBack can f v x
      else do
        let b ← v.buf.constructJunk v.size
        let b ← b.shiftUp triv pos 1 (v.size - pos)
        let b ← b.assign triv pos x
        .ok { v with buf := b, size := v.size + 1 }
    else insert triv can f (v.reserve can v.nextCap) pos x

/-- Vector.hpp 849-878: `emplace(it, args...)`: like `insert`, but line 868 constructs over the (moved-from) object. -/
def emplace (triv : Bool) (can : Nat → Bool) : Nat → Vec α → Nat → α → Res (Vec α)
  | 0, _, _, _ => .loop
  | f + 1, v, pos, x =>
    if v.size < pos then .ub
    else if v.size < v.cap then
      if pos = v.size then pushBack can f v x
      else do
        let b ← v.buf.constructJunk v.size
        let b ← b.shiftUp triv pos 1 (v.size - pos)
        let b ← b.construct pos x
        .ok { v with buf := b, size := v.size + 1 }
    else emplace triv can f (v.reserve can v.nextCap) pos x

/-- Loop of `pushBack` over a range (Vector.hpp 818-819). -/
def pushBackList (can : Nat → Bool) (f : Nat) : Vec α → List α → Res (Vec α)
  | v, [] => .ok v
  | v, x :: xs => do
    let v ← pushBack can f v x
    pushBackList can f v xs

/-- Vector.hpp 806-847: `insert(it, itBegin, itEnd)`; the input range is disjoint from the vector. -/
def insertRange (triv : Bool) (can : Nat → Bool) : Nat → Vec α → Nat → List α → Res (Vec α)
  | 0, _, _, _ => .loop
  | f + 1, v, pos, xs =>
    if v.size < pos then .ub
    else if xs.length = 0 then .ok v
    else if xs.length + v.size ≤ v.cap then
      if pos = v.size then pushBackList can f v xs
      else do
        let b ← v.buf.junkRange v.size xs.length
        let b ← b.shiftUp triv pos xs.length (v.size - pos)
        let b ← b.assignList triv pos xs
        .ok { v with buf := b, size := v.size + xs.length }
    else insertRange triv can f (v.reserve can (v.cap + xs.length)) pos xs

/-- Vector.hpp 880-896: `erase(it)`. -/
def erase (triv : Bool) (v : Vec α) (pos : Nat) : Res (Vec α) :=
  if v.size < pos then .ub
  else if pos = v.size then .ok v
  else if pos + 1 = v.size then popBack triv v
  else do
    let b ← v.buf.shiftDown triv (pos + 1) pos (v.size - (pos + 1))
    .ok { v with buf := b, size := v.size - 1 }

/-- Vector.hpp 898-919: `erase(itBegin, itEnd)`; iterators outside the vector or reversed: reversed ones fall through
(904-905), ones beyond `end` are `ub`. -/
def eraseRange (triv : Bool) (v : Vec α) (b e : Nat) : Res (Vec α) :=
  if v.size < b ∨ v.size < e then .ub
  else if e < b then .ok v
  else if e - b = v.size then clean triv v
  else if 0 < e - b then do
    let c ← v.buf.destroyRange triv b (e - b)
    let c ← c.shiftDown triv e b (v.size - e)
    .ok { v with buf := c, size := v.size - (e - b) }
  else .ok v

/-- Vector.hpp 407-416 (and 396-405): copy constructor: capacity is the source's size. -/
def copy (v : Vec α) : Res (Vec α) := do
  let xs ← v.buf.getRange 0 v.size
  let b ← Cells.constructList (List.replicate v.size .raw) 0 xs
  .ok ⟨b, v.size, v.size⟩

/-- Vector.hpp 446-459: initializer-list constructor. -/
def ofInitList (xs : List α) : Res (Vec α) := do
  let b ← Cells.constructList (List.replicate xs.length .raw) 0 xs
  .ok ⟨b, xs.length, xs.length⟩

/-- Vector.hpp 429-437: move constructor: (new vector, moved-from source).  `vectorCapacity` of the source is kept. -/
def moveCtor (v : Vec α) : Vec α × Vec α := (v, ⟨[], v.cap, 0⟩)

/-- Vector.hpp 439-444: `Vector(size)`: `vectorCapacity = size*3/2`, all of it default constructed,
`tail = head + vectorCapacity`. -/
def ofSize (n : Nat) : Vec α := ⟨List.replicate (n * 3 / 2) .junk, n * 3 / 2, n * 3 / 2⟩

/-- Vector.hpp 557-558: `while (size() != newSize) emplaceNew(tail++)`. -/
def fillJunk (v : Vec α) : Nat → Res (Vec α)
  | 0 => .ok v
  | n + 1 => do
    let b ← v.buf.constructJunk v.size
    fillJunk { v with buf := b, size := v.size + 1 } n

/-- Vector.hpp 550-566: `resize`. -/
def resize (can : Nat → Bool) : Nat → Vec α → Nat → Res (Vec α)
  | 0, _, _ => .loop
  | f + 1, v, n =>
    if v.size < n then
      if n < v.cap then fillJunk v (n - v.size)
      else if v.cap < n then resize can f (v.reserve can v.nextCap) n
      else .ok v
    else .ok v

/-- Vector.hpp 468-487: `operator=(const Vector<...> &)`: recursion after `reserve(vector.size() - capacity())`; the
assigning loop writes through an iterator and never advances `tail`. -/
def assignFrom (triv : Bool) (can : Nat → Bool) : Nat → Vec α → List α → Res (Vec α)
  | 0, _, _ => .loop
  | f + 1, v, xs =>
    if v.cap < xs.length then assignFrom triv can f (v.reserve can (xs.length - v.cap)) xs
    else do
      let v ← v.clean triv
      let b ← v.buf.assignList triv 0 xs
      .ok { v with buf := b }

/-- Vector.hpp 606-615 + 461-466: the destructor: what remains alive in the allocation when it is freed. -/
def leakedAtDestruction (triv : Bool) (v : Vec α) : Res Nat :=
  match v.clean triv with
  | .ok v => .ok (v.buf.countP Cell.isLive)
  | .ub => .ub
  | .loop => .loop

/-- Iterating `begin()..end()` (Vector.hpp 626-636, 662-672) and reading every element. -/
def toList (v : Vec α) : Res (List α) := v.buf.getRange 0 v.size

/-- Vector.hpp 510-524: `operator[]` (unchecked). -/
def at? (v : Vec α) (i : Nat) : Res α := v.buf.get i

/-! ### Arguments that refer to the vector's own elements -/

/-- Vector.hpp 698-711 with `object` referring to element `i` of the same vector.  If the vector reallocates, the
reference dangles; reading it is `ub`. -/
def pushBackOwn (can : Nat → Bool) (f : Nat) (v : Vec α) (i : Nat) : Res (Vec α) :=
  if v.size ≠ v.cap then do
    let x ← v.buf.get i
    pushBack can (f + 1) v x
  else if v.cap < v.nextCap ∧ can v.nextCap then .ub
  else .loop

/-- Vector.hpp 745-773 with `object` referring to element `i` of the same vector (no reallocation, `it` not `end()`):
line 763 reads `object` after the shift.  `keep`: see `Cells.rest`. -/
def insertOwn (triv keep : Bool) (v : Vec α) (pos i : Nat) : Res (Vec α) := do
  let b ← v.buf.constructJunk v.size
  let b ← b.shiftUpK triv keep pos 1 (v.size - pos)
  let x ← b.get i
  let b ← b.assign triv pos x
  .ok { v with buf := b, size := v.size + 1 }

/-- Vector.hpp 849-878 with an argument referring to element `i` of the same vector (no reallocation, `it` not `end()`): line 868
constructs from it after the shift. -/
def emplaceOwn (triv keep : Bool) (v : Vec α) (pos i : Nat) : Res (Vec α) := do
  let b ← v.buf.constructJunk v.size
  let b ← b.shiftUpK triv keep pos 1 (v.size - pos)
  let x ← b.get i
  let b ← b.construct pos x
  .ok { v with buf := b, size := v.size + 1 }

/-- The loop of Vector.hpp 818-819 over elements of the same vector. -/
def pushOwnLoop (can : Nat → Bool) (f : Nat) : Vec α → Nat → Nat → Res (Vec α)
  | v, _, 0 => .ok v
  | v, src, n + 1 => do
    let x ← v.buf.get src
    let v ← pushBack can f v x
    pushOwnLoop can f v (src + 1) n

/-- Vector.hpp 806-847 with `[itBegin, itEnd)` the elements from `b` up to `e` of the same vector.  After reallocation the iterators
dangle (counting and reading through them is `ub`); when the allocation fails the call repeats itself for ever. -/
def insertRangeOwn (triv keep : Bool) (can : Nat → Bool) (f : Nat) (v : Vec α) (pos b e : Nat) : Res (Vec α) :=
  if v.size < pos ∨ v.size < e ∨ e < b then .ub
  else if e - b = 0 then .ok v
  else if (e - b) + v.size ≤ v.cap then
    if pos = v.size then pushOwnLoop can f v b (e - b)
    else do
      let c ← v.buf.junkRange v.size (e - b)
      let c ← c.shiftUpK triv keep pos (e - b) (v.size - pos)
      let c ← c.assignOwn triv b pos (e - b)
      .ok { v with buf := c, size := v.size + (e - b) }
  else if can (v.cap + (e - b)) then .ub
  else .loop

/-! ### Histories -/

/-- Calls of the public interface. -/
inductive Op (α : Type u) where
  | pushBack (x : α)
  | popBack
  | insert (pos : Nat) (x : α)
  | emplace (pos : Nat) (x : α)
  | insertRange (pos : Nat) (xs : List α)
  | erase (pos : Nat)
  | eraseRange (b e : Nat)
  | reserve (n : Nat)
  | clean
  deriving Repr, DecidableEq

/-- Effect of a call on the model. -/
def step (triv : Bool) (can : Nat → Bool) (f : Nat) (v : Vec α) : Op α → Res (Vec α)
  | .pushBack x => v.pushBack can f x
  | .popBack => v.popBack triv
  | .insert p x => v.insert triv can f p x
  | .emplace p x => v.emplace triv can f p x
  | .insertRange p xs => v.insertRange triv can f p xs
  | .erase p => v.erase triv p
  | .eraseRange b e => v.eraseRange triv b e
  | .reserve n => .ok (v.reserve can n)
  | .clean => v.clean triv

end Vec
end Flame
