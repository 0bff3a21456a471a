import Verif.BufOwn

/-!
# Model of `Array` (include/FlameIDE/Templates/Array.hpp)

* `SVec`: `Array<T, N, false>` = `StaticVector<T, N>` (lines 1-1000): inline storage of `N` cells and a `tail` pointer.
  The capacity `N` is `buf.length`.
* `StaticArray`: `Array<T, N, true>` (lines 1000-1640): `N` live objects, modelled as a plain list of values of length `N`
  (the objects are always constructed, so no cell states are needed).
-/

namespace Flame

/-- Array.hpp 417-418: `objects[ARRAY_CAPACITY]`, `tail` (= head() + size). -/
structure SVec (α : Type u) where
  buf : Cells α
  size : Nat
  deriving Repr, DecidableEq

namespace SVec
variable {α : Type u}

/-- Array.hpp 657-661: `capacity()`. -/
def cap (s : SVec α) : Nat := s.buf.length

/-- Array.hpp 434-438: default constructor. -/
def empty (n : Nat) : SVec α := ⟨List.replicate n .raw, 0⟩

/-- Array.hpp 770-778 `pushBack(const&)`; 780-789 `pushBack(&&)` and 791-797 `emplaceBack` likewise: ignored when full. -/
def pushBack (s : SVec α) (x : α) : Res (SVec α) :=
  if s.size < s.cap then do
    let b ← s.buf.construct s.size x
    .ok ⟨b, s.size + 1⟩
  else .ok s

/-- Loops of `pushBack` over a range (e.g. Array.hpp 618-620, 873-876). -/
def pushBackList (s : SVec α) : List α → Res (SVec α)
  | [] => .ok s
  | x :: xs => do
    let s ← s.pushBack x
    pushBackList s xs

/-- Array.hpp 799-807: `popBack`. -/
def popBack (triv : Bool) (s : SVec α) : Res (SVec α) :=
  if s.size ≠ 0 then do
    let b ← s.buf.destroy triv (s.size - 1)
    .ok ⟨b, s.size - 1⟩
  else .ok s

/-- Array.hpp 677-683: `clean`. -/
def clean (triv : Bool) (s : SVec α) : Res (SVec α) := do
  let b ← s.buf.destroyRange triv 0 s.size
  .ok ⟨b, 0⟩

/-- Array.hpp 809-831 `insert(it, const&)` and 833-857 `insert(it, &&)`.  An iterator outside `[begin, end]` is `ub`.
When the array is full nothing happens. -/
def insert (triv : Bool) (s : SVec α) (pos : Nat) (x : α) : Res (SVec α) :=
  if s.size < pos then .ub
  else if s.size < s.cap then
    if pos = s.size then s.pushBack x
    else do
      let b ← s.buf.constructJunk s.size
      let b ← b.shiftUp triv pos 1 (s.size - pos)
      let b ← b.assign triv pos x
      .ok ⟨b, s.size + 1⟩
  else .ok s

/-- Array.hpp 906-929: `emplace`: the moved-from object is destroyed (923) before construction (924). -/
def emplace (triv : Bool) (s : SVec α) (pos : Nat) (x : α) : Res (SVec α) :=
  if s.size < pos then .ub
  else if s.size < s.cap then
    if pos = s.size then s.pushBack x
    else do
      let b ← s.buf.constructJunk s.size
      let b ← b.shiftUp triv pos 1 (s.size - pos)
      let b ← b.destroy triv pos
      let b ← b.construct pos x
      .ok ⟨b, s.size + 1⟩
  else .ok s

/-- Array.hpp 859-904: `insert(it, itBegin, itEnd)`; the input range is disjoint from the array. -/
def insertRange (triv : Bool) (s : SVec α) (pos : Nat) (xs : List α) : Res (SVec α) :=
  if s.size < pos then .ub
  else if xs.length = 0 then .ok s
  else if xs.length + s.size ≤ s.cap then
    if pos = s.size then s.pushBackList xs
    else do
      let b ← s.buf.junkRange s.size xs.length
      let b ← b.shiftUp triv pos xs.length (s.size - pos)
      let b ← b.assignList triv pos xs
      .ok ⟨b, s.size + xs.length⟩
  else .ok s

/-- Array.hpp 931-947: `erase(it)`. -/
def erase (triv : Bool) (s : SVec α) (pos : Nat) : Res (SVec α) :=
  if s.size < pos then .ub
  else if pos = s.size then .ok s
  else if pos + 1 = s.size then popBack triv s
  else do
    let b ← s.buf.shiftDown triv (pos + 1) pos (s.size - (pos + 1))
    .ok ⟨b, s.size - 1⟩

/-- Array.hpp 949-969: `erase(itBegin, itEnd)`. -/
def eraseRange (triv : Bool) (s : SVec α) (b e : Nat) : Res (SVec α) :=
  if s.size < b ∨ s.size < e then .ub
  else if e = b + s.size then clean triv s
  else if e < b + s.size ∧ b < e then do
    let c ← s.buf.destroyRange triv b (e - b)
    let c ← c.shiftDown triv e b (s.size - e)
    .ok ⟨c, s.size - (e - b)⟩
  else .ok s

/-- Array.hpp 631-635: `operator-=(ReverseIterator)`; the reverse iterator points at index `r`. -/
def eraseRev (triv : Bool) (s : SVec α) (r : Nat) : Res (SVec α) := s.erase triv r

/-- Array.hpp 644-651: `operator-=(Range<ReverseIterator>)`: the reverse range starts at (and includes) index `first` and
runs down to, excluding, index `last` (`last = -1` is `rend()`); forward range `[last+1, first+1)`. -/
def eraseRevRange (triv : Bool) (s : SVec α) (first last : Int) : Res (SVec α) :=
  if first < -1 ∨ last < -1 then .ub else s.eraseRange triv (last + 1).toNat (first + 1).toNat

/-- Array.hpp 615-622: `operator+=(Range)`. -/
def appendRange (s : SVec α) (xs : List α) : Res (SVec α) := s.pushBackList xs

/-- Array.hpp 971-980: `reset`: `clean`, then every cell's bytes are zeroed (modelled: raw storage). -/
def reset (triv : Bool) (s : SVec α) : Res (SVec α) := do
  let s ← s.clean triv
  .ok ⟨List.replicate s.buf.length .raw, s.size⟩

/-- Iterating `begin()..end()`. -/
def toList (s : SVec α) : Res (List α) := s.buf.getRange 0 s.size

/-- Array.hpp 449-455 copy constructor (capacity `n` equal to the source's), 440-447 cross-capacity constructor (`n`
arbitrary: empty when the source is larger), 466-472 / 457-464 move versions (same values). -/
def ofOther (n : Nat) (src : SVec α) : Res (SVec α) :=
  if src.size ≤ n then do
    let xs ← src.toList
    (empty n).pushBackList xs
  else .ok (empty n)

/-- Array.hpp 521-531 `operator=(const Me&)` from another object, 509-519 cross-capacity: unchanged when the source is
larger than this capacity. -/
def assignOther (triv : Bool) (s src : SVec α) : Res (SVec α) :=
  if src.size > s.cap then .ok s
  else do
    let xs ← src.toList
    let s ← s.clean triv
    s.pushBackList xs

/-- Array.hpp 685-692: `clone`. -/
def clone (s : SVec α) : Res (SVec α) := do
  let xs ← s.toList
  (empty s.cap).pushBackList xs

/-- The comparison loop of Array.hpp 567-574: `it` is never advanced, so every element is compared with `*it`. -/
def eqLoop [DecidableEq α] (other : SVec α) : List α → Res (ULift.{u} Bool)
  | [] => .ok ⟨true⟩
  | x :: xs => do
    let y ← other.buf.get 0
    if x ≠ y then .ok ⟨false⟩ else eqLoop other xs

/-- Array.hpp 557-577: `operator==` between different objects (the same object compares equal at once). -/
def eq [DecidableEq α] (s other : SVec α) : Res (ULift.{u} Bool) :=
  if s.size ≠ other.size then .ok ⟨false⟩
  else do
    let xs ← s.toList
    eqLoop other xs

/-! ### Arguments that refer to the array's own elements (`keep`: see `Cells.rest`) -/

/-- Array.hpp 770-778 with `object` referring to element `i`. -/
def pushBackOwn (s : SVec α) (i : Nat) : Res (SVec α) :=
  if s.size < s.cap then do
    let x ← s.buf.get i
    let b ← s.buf.construct s.size x
    .ok ⟨b, s.size + 1⟩
  else .ok s

/-- Array.hpp 809-831 with `object` referring to element `i`: line 828 reads it after the shift. -/
def insertOwn (triv keep : Bool) (s : SVec α) (pos i : Nat) : Res (SVec α) :=
  if s.size < pos then .ub
  else if s.size < s.cap then
    if pos = s.size then s.pushBackOwn i
    else do
      let b ← s.buf.constructJunk s.size
      let b ← b.shiftUpK triv keep pos 1 (s.size - pos)
      let x ← b.get i
      let b ← b.assign triv pos x
      .ok ⟨b, s.size + 1⟩
  else .ok s

/-- The destructor call of Array.hpp 923 on an element that may be referred to afterwards: the (pseudo) destructor of a trivially copied
type leaves the value. -/
def endLife (triv keep : Bool) (b : Cells α) (i : Nat) : Res (Cells α) := if keep then .ok b else b.destroy triv i

/-- Array.hpp 906-929 with an argument referring to element `i`: line 924 reads it after the shift and after the object at `it` was
destroyed. -/
def emplaceOwn (triv keep : Bool) (s : SVec α) (pos i : Nat) : Res (SVec α) :=
  if s.size < pos then .ub
  else if s.size < s.cap then
    if pos = s.size then s.pushBackOwn i
    else do
      let b ← s.buf.constructJunk s.size
      let b ← b.shiftUpK triv keep pos 1 (s.size - pos)
      let b ← endLife triv keep b pos
      let x ← b.get i
      let b ← b.construct pos x
      .ok ⟨b, s.size + 1⟩
  else .ok s

/-- The loops of Array.hpp 618-620 and 873-876 over `n` elements of the same array. -/
def pushOwnLoop : SVec α → Nat → Nat → Res (SVec α)
  | s, _, 0 => .ok s
  | s, src, n + 1 => do
    let s ← s.pushBackOwn src
    pushOwnLoop s (src + 1) n

/-- Array.hpp 615-622 with the range of the array's own elements from `b` up to `e`. -/
def appendOwn (s : SVec α) (b e : Nat) : Res (SVec α) :=
  if s.size < e ∨ e < b then .ub else pushOwnLoop s b (e - b)

/-- Array.hpp 859-904 with `[itBegin, itEnd)` the array's own elements from `b` up to `e`. -/
def insertRangeOwn (triv keep : Bool) (s : SVec α) (pos b e : Nat) : Res (SVec α) :=
  if s.size < pos ∨ s.size < e ∨ e < b then .ub
  else if e - b = 0 then .ok s
  else if (e - b) + s.size ≤ s.cap then
    if pos = s.size then pushOwnLoop s b (e - b)
    else do
      let c ← s.buf.junkRange s.size (e - b)
      let c ← c.shiftUpK triv keep pos (e - b) (s.size - pos)
      let c ← c.assignOwn triv b pos (e - b)
      .ok ⟨c, s.size + (e - b)⟩
  else .ok s

/-- Calls of the public interface. -/
inductive Op (α : Type u) where
  | pushBack (x : α)
  | popBack
  | insert (pos : Nat) (x : α)
  | emplace (pos : Nat) (x : α)
  | insertRange (pos : Nat) (xs : List α)
  | appendRange (xs : List α)
  | erase (pos : Nat)
  | eraseRange (b e : Nat)
  | clean
  | reset
  deriving Repr, DecidableEq

/-- Effect of a call on the model. -/
def step (triv : Bool) (s : SVec α) : Op α → Res (SVec α)
  | .pushBack x => s.pushBack x
  | .popBack => s.popBack triv
  | .insert p x => s.insert triv p x
  | .emplace p x => s.emplace triv p x
  | .insertRange p xs => s.insertRange triv p xs
  | .appendRange xs => s.appendRange xs
  | .erase p => s.erase triv p
  | .eraseRange b e => s.eraseRange triv b e
  | .clean => s.clean triv
  | .reset => s.reset triv

end SVec

/-! ## Pure array -/

namespace StaticArray
variable {α : Type u}

/-- Array.hpp 1296-1305 (copy constructor), 1333-1342 (initializer list): `*it = i; ++it` from `begin()`; `dst` is the
default-constructed contents.  The move constructors and move assignments (1307-1331, 1399-1422) are the same loop but cannot be
instantiated: `MoveReference i` is bound to the elements of a named array (so they are not modelled). -/
def copyLoop : List α → List α → Res (List α)
  | dst, [] => .ok dst
  | [], _ :: _ => .ub
  | _ :: dst, x :: src => do
    let r ← copyLoop dst src
    .ok (x :: r)

/-- Array.hpp 1281-1294: construction from an array of another capacity. -/
def ofOther (dflt src : List α) : Res (List α) := if src.length ≤ dflt.length then copyLoop dflt src else .ok dflt

/-- The loops of Array.hpp 1363-1366, 1349-1352 and 1478-1481: `*it = i` without advancing `it`. -/
def assignLoop : List α → List α → Res (List α)
  | dst, [] => .ok dst
  | [], _ :: _ => .ub
  | _ :: dst, x :: src => assignLoop (x :: dst) src

/-- Array.hpp 1358-1370 `operator=(const Me&)` (different objects) and 1344-1356 (cross-capacity, source not larger). -/
def assign (dst src : List α) : Res (List α) := if src.length ≤ dst.length then assignLoop dst src else .ok dst

/-- Array.hpp 1474-1484: `clone`: a default-constructed `copy` (contents `dflt`), then the same loop.  Only the body is modelled:
returning `copy` needs the move constructor, so an instantiation is rejected by the compiler. -/
def clone (dflt src : List α) : Res (List α) := assignLoop dflt src

/-- Array.hpp 1372-1391: `operator==`. -/
def eqLoop [DecidableEq α] : List α → List α → Bool
  | [], _ => true
  | _ :: _, [] => false
  | x :: xs, y :: ys => if x ≠ y then false else eqLoop xs ys

/-- Array.hpp 1372-1391: sizes first, then the loop. -/
def eq [DecidableEq α] (a b : List α) : Bool := if a.length ≠ b.length then false else eqLoop a b

/-- Array.hpp 1464-1472: `reset` assigns `Type()` (`d`) to every object. -/
def reset (d : α) (a : List α) : List α := a.map fun _ => d

end StaticArray
end Flame
