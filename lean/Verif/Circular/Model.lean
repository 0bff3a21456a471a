import Verif.Buf
import Verif.Circular.Iterator

/-!
# Model of `CircularArray<T, N>` (include/FlameIDE/Templates/CircularArray.hpp)

The object owns a `StaticVector<T, N+1>` used as ring storage; `head` and `tail` are offsets into it.  `own` is the
element count the inner `StaticVector` believes it has: 0 for normal use (elements are placed directly into its storage),
but the number of elements for objects made by the copy and move constructors, which call `buffer.pushBack`.
The `StaticVector` destructor destroys its first `own` slots.
-/

namespace Flame

/-- `CircularArray<T, N>`; `buf.length = N + 1`. -/
structure CArr (α : Type u) where
  buf : Cells α
  head : Nat
  tail : Nat
  own : Nat
  deriving Repr, DecidableEq

namespace CArr
variable {α : Type u}

/-- CircularArray.hpp 263-266. -/
def empty (N : Nat) : CArr α := ⟨List.replicate (N + 1) .raw, 0, 0, 0⟩

/-- CircularArray.hpp 104-107. -/
def capacity (c : CArr α) : Nat := c.buf.length - 1

/-- CircularArray.hpp 331-343. -/
def size (c : CArr α) : Nat :=
  if c.head > c.tail then c.capacity - (c.head - c.tail - 1) else c.tail - c.head

/-- CircularArray.hpp 516-524. -/
def updateTerminal (c : CArr α) (t : Nat) : Nat := if t = c.buf.length then 0 else t

/-- CircularArray.hpp 355-364 (const), 366-376 (move), 414-418 (emplace). -/
def pushBack (c : CArr α) (x : α) : Res (CArr α) :=
  if c.size ≠ c.capacity then
    match c.buf.construct c.tail x with
    | .ok b => .ok { c with buf := b, tail := updateTerminal c (c.tail + 1) }
    | .ub => .ub
    | .loop => .loop
  else .ok c

/-- Body of the loop of CircularArray.hpp 388-392 and 406-410. -/
def pushLoop (c : CArr α) : List α → Res (CArr α)
  | [] => .ok c
  | x :: xs =>
    match c.buf.construct c.tail x with
    | .ok b => pushLoop { c with buf := b, tail := updateTerminal c (c.tail + 1) } xs
    | .ub => .ub
    | .loop => .loop

/-- CircularArray.hpp 378-394 and 396-412; the range is a list and does not alias the array.  Lines 385 and 403 call `countIterations` with
the range as its only argument, and no such overload exists (SimpleAlgorithms.hpp 27-28): a program that pushes a range does not compile as
the header stands.  The model takes the number of elements of the range, the evident meaning. -/
def pushBackRange (c : CArr α) (xs : List α) : Res (CArr α) :=
  if xs.length ≤ c.capacity - c.size then pushLoop c xs else .ok c

/-- CircularArray.hpp 420-428. -/
def popFront (triv : Bool) (c : CArr α) : Res (CArr α) :=
  if c.head ≠ c.tail then
    match c.buf.destroy triv c.head with
    | .ok b => .ok { c with buf := b, head := updateTerminal c (c.head + 1) }
    | .ub => .ub
    | .loop => .loop
  else .ok c

/-- The loop of a range-for from position `p` to `e` with the circular prefix `++` (Operators.hpp 475-485), reading every
element.  `loop` if `e` is not met within the fuel. -/
def walk (b : Cells α) : Nat → Nat → Nat → Res (List α)
  | 0, _, _ => .loop
  | f + 1, p, e =>
    if p = e then .ok []
    else
      match b.get p, walk b f (CIter.inc b.length p).toNat e with
      | .ok a, .ok r => .ok (a :: r)
      | .ok _, r => r
      | _, _ => .ub

/-- `it + k` for a circular iterator at `p` (Operators.hpp 120-128, 499-515). -/
def advance (c : CArr α) (p k : Nat) : Nat := (CIter.plusAssign c.buf.length p k).toNat

/-- Non-const iteration `for (auto &i : array)`: CircularArray.hpp 430-435, 472-477. -/
def toList (c : CArr α) : Res (List α) := walk c.buf (c.buf.length + 1) c.head (advance c c.head c.size)

/-- Const iteration: CircularArray.hpp 444-449 (`cbegin` starts at the beginning of the storage), 486-491. -/
def toListConst (c : CArr α) : Res (List α) := walk c.buf (c.buf.length + 1) 0 (advance c 0 c.size)

/-- Range-for over `rbegin()..rend()`, prefix `++` of the reverse iterator is circular `--` (Operators.hpp 34-39, 487-497). -/
def walkBack (b : Cells α) : Nat → Nat → Nat → Res (List α)
  | 0, _, _ => .loop
  | f + 1, p, e =>
    if p = e then .ok []
    else
      match b.get p, walkBack b f (CIter.dec b.length p).toNat e with
      | .ok a, .ok r => .ok (a :: r)
      | .ok _, r => r
      | _, _ => .ub

/-- CircularArray.hpp 451-456 (`rbegin = --end()`), 493-498 (`rend = rbegin() + size()`, i.e. circular `-= size()`). -/
def toListReverse (c : CArr α) : Res (List α) :=
  let rb := (CIter.dec c.buf.length (advance c c.head c.size)).toNat
  walkBack c.buf (c.buf.length + 1) rb (CIter.minusAssign c.buf.length rb c.size).toNat

/-- CircularArray.hpp 345-353: the loop variable is a *copy*; its destructor runs by hand and again at the end of the scope
(undefined unless trivial); the stored elements are not destroyed. -/
def clean (triv : Bool) (c : CArr α) : Res (CArr α) :=
  match toList c with
  | .ok [] => .ok { c with head := 0, tail := 0 }
  | .ok (_ :: _) => if triv then .ok { c with head := 0, tail := 0 } else .ub
  | .ub => .ub
  | .loop => .loop

/-- Placement of the elements one after another from offset 0 (used by the copy operations below). -/
def place (b : Cells α) (xs : List α) : Res (Cells α) := b.constructList 0 xs

/-- CircularArray.hpp 268-276: the elements are read through *const* iteration and appended to the inner `StaticVector`. -/
def copy (c : CArr α) : Res (CArr α) :=
  match toListConst c with
  | .ok xs =>
    match place (List.replicate c.buf.length .raw) xs with
    | .ok b => .ok ⟨b, 0, c.size, xs.length⟩
    | .ub => .ub
    | .loop => .loop
  | .ub => .ub
  | .loop => .loop

/-- CircularArray.hpp 278-286: non-const iteration.  The source (its elements are moved from) is not tracked further. -/
def moveCtor (c : CArr α) : Res (CArr α) :=
  match toList c with
  | .ok xs =>
    match place (List.replicate c.buf.length .raw) xs with
    | .ok b => .ok ⟨b, 0, c.size, xs.length⟩
    | .ub => .ub
    | .loop => .loop
  | .ub => .ub
  | .loop => .loop

/-- CircularArray.hpp 297-305 (from another object).  The state effect only: the function has no `return` statement, so in
C++ the call is undefined behaviour even when the state is right. -/
def assignState (triv : Bool) (dst src : CArr α) : Res (CArr α) :=
  match clean triv dst with
  | .ok d =>
    match toListConst src with
    | .ok xs =>
      match place d.buf xs with
      | .ok b => .ok { d with buf := b, tail := xs.length }
      | .ub => .ub
      | .loop => .loop
    | .ub => .ub
    | .loop => .loop
  | .ub => .ub
  | .loop => .loop

/-- CircularArray.hpp 307-315 (from another object; state effect only, as above): non-const iteration. -/
def moveAssignState (triv : Bool) (dst src : CArr α) : Res (CArr α) :=
  match clean triv dst with
  | .ok d =>
    match toList src with
    | .ok xs =>
      match place d.buf xs with
      | .ok b => .ok { d with buf := b, tail := xs.length }
      | .ub => .ub
      | .loop => .loop
    | .ub => .ub
    | .loop => .loop
  | .ub => .ub
  | .loop => .loop

/-- Destructor calls along the ring from `p` to `e`. -/
def destroyWalk (triv : Bool) (b : Cells α) : Nat → Nat → Nat → Res (Cells α)
  | 0, _, _ => .loop
  | f + 1, p, e =>
    if p = e then .ok b
    else
      match b.destroy triv p with
      | .ok b' => destroyWalk triv b' f (CIter.inc b.length p).toNat e
      | .ub => .ub
      | .loop => .loop

/-- CircularArray.hpp 288-295 followed by the destructor of the `StaticVector` member (Array.hpp: destroys its `own` slots). -/
def destruct (triv : Bool) (c : CArr α) : Res (Cells α) :=
  match destroyWalk triv c.buf (c.buf.length + 1) c.head (advance c c.head c.size) with
  | .ok b => b.destroyRange triv 0 c.own
  | .ub => .ub
  | .loop => .loop

end CArr
end Flame
