import Verif.List.Lemmas2
import Verif.Vector.Model

/-!
# Objects in a growing `Vector` (include/FlameIDE/Templates/Vector.hpp 569-604, 698-743)

`reserve` first asks `reallocateArray` (Vector.hpp 573, Allocator/ArrayAllocator.hpp 125-137, MallocAllocator.hpp 71: `realloc`), which carries the bytes
of the elements to their new place; only if that fails are they move-constructed in a new array (576-594).  Here objects have
addresses: the members of an object may contain addresses inside the object itself.

Simplification: `sizeof(Type) * count` does not wrap.
-/

namespace Flame.Reloc

/-- A class as its users see it.  `read a m` is what the observers of an object at address `a` with members `m` answer, `make a x` are the members of an
object with the value `x` (satisfying `fits`) constructed at `a`, `moveTo a b m` those of one move-constructed at `b` from the one at `a`. -/
structure Cls where
  Val : Type
  Mem : Type
  /-- `sizeof` -/
  width : Nat
  fits : Val → Prop
  make : Int → Val → Mem
  read : Int → Mem → Res Val
  moveTo : Int → Int → Mem → Res Mem

/-- Vector.hpp 378-380: `head` (`base`), the elements (`tail - head` many) and `vectorCapacity`. -/
structure V (c : Cls) where
  base : Int
  items : List c.Mem
  cap : Nat

/-- What the allocator does about a request: `realloc` moves (or leaves) the block at `b`; `realloc` fails and `createArray` gives `b`; both fail. -/
inductive Ans where
  | moved (b : Int)
  | created (b : Int)
  | fail
  deriving DecidableEq, Repr

variable {c : Cls}

/-- Vector.hpp 389-394: default constructor; `head` is null. -/
def V.empty : V c := ⟨0, [], 0⟩

/-- Vector.hpp 921-932: `nextCapacity`. -/
def V.nextCap (v : V c) : Nat := if v.cap ≠ 0 then v.cap * 3 / 2 else 8

/-- Vector.hpp 582-590: the elements move-constructed one by one at their places in the new array. -/
def moveAll (c : Cls) : Int → Int → List c.Mem → Res (List c.Mem)
  | _, _, [] => .ok []
  | a, b, m :: ms => do
    let x ← c.moveTo a b m
    let xs ← moveAll c (a + c.width) (b + c.width) ms
    .ok (x :: xs)

/-- Vector.hpp 568-604: `reserve`. -/
def V.reserve (ans : Nat → Ans) (v : V c) (n : Nat) : Res (V c) :=
  if v.cap < n then
    match ans n with
    -- 595-601
    | .moved b => .ok { v with base := b, cap := n }
    -- 576-594
    | .created b => do
      let items ← moveAll c v.base b v.items
      .ok ⟨b, items, n⟩
    | .fail => .ok v
  else .ok v

/-- Vector.hpp 698-711, 713-723, 725-736: `pushBack`, `emplaceBack`. -/
def V.pushBack (ans : Nat → Ans) : Nat → V c → c.Val → Res (V c)
  | 0, _, _ => .loop
  | f + 1, v, x =>
    if v.items.length ≠ v.cap then .ok { v with items := v.items ++ [c.make (v.base + c.width * v.items.length) x] }
    else do
      let v ← v.reserve ans v.nextCap
      V.pushBack ans f v x

/-- Vector.hpp 738-743: `popBack` (of elements whose destructors work). -/
def V.popBack (v : V c) : V c := { v with items := v.items.dropLast }

/-- Reading elements that lie one after the other from address `a`. -/
def readAll (c : Cls) : Int → List c.Mem → Res (List c.Val)
  | _, [] => .ok []
  | a, m :: ms => do
    let x ← c.read a m
    let xs ← readAll c (a + c.width) ms
    .ok (x :: xs)

/-- Vector.hpp 626-636, 662-672: iterating and reading every element. -/
def V.toList (v : V c) : Res (List c.Val) := readAll c v.base v.items

/-- Vector.hpp 510-524: `operator[]`, and reading the element. -/
def V.at (v : V c) (i : Nat) : Res c.Val :=
  match v.items[i]? with
  | some m => c.read (v.base + c.width * i) m
  | none => .ub

inductive Op (c : Cls) where
  | pushBack (ans : Nat → Ans) (x : c.Val)
  | reserve (ans : Nat → Ans) (n : Nat)
  | popBack

def V.step (f : Nat) (v : V c) : Op c → Res (V c)
  | .pushBack ans x => v.pushBack ans f x
  | .reserve ans n => v.reserve ans n
  | .popBack => .ok v.popBack

/-! ## Classes -/

/-- Vectors as elements: Vector.hpp 378-380: both pointers lead to the heap. -/
def vecCls (α : Type) (width : Nat) : Cls where
  Val := List α
  Mem := Vec α
  width := width
  fits _ := True
  make _ xs := ⟨xs.map .live, xs.length, xs.length⟩
  read _ v := v.toList
  moveTo _ _ v := .ok v.moveCtor.1

/-- Fixed-capacity vectors (`StaticVector`): Array.hpp 417-418: the elements and the address behind the last one. -/
structure SV (α : Type) where
  cells : Cells α
  tail : Int
  deriving DecidableEq, Repr

/-- Array.hpp 693-716: iterating from `head()`, at `p`, up to `tail` and reading, in steps of `w` bytes; `cells` are those from `p` on. -/
def SV.readFrom {α : Type} (w : Nat) (tail : Int) : Int → Cells α → Res (List α)
  | p, [] => if p = tail then .ok [] else .ub
  | p, x :: xs =>
    if p = tail then .ok []
    else match x with
      | .live a => do
        let r ← SV.readFrom w tail (p + w) xs
        .ok (a :: r)
      | _ => .ub

/-- Array.hpp 677-683 (`clean`) and 502-507 (destructor): destroying from `head()` up to `tail`. -/
def SV.cleanFrom {α : Type} (w : Nat) (tail : Int) : Int → Cells α → Res (Cells α)
  | p, [] => if p = tail then .ok [] else .ub
  | p, x :: xs =>
    if p = tail then .ok (x :: xs)
    else if x.isLive then do
      let r ← SV.cleanFrom w tail (p + w) xs
      .ok (.raw :: r)
    else .ub

/-- Array.hpp 447-453, 463-470: construction with the elements `xs` at address `a`. -/
def SV.at (n w : Nat) (a : Int) {α : Type} (xs : List α) : SV α :=
  ⟨xs.map .live ++ List.replicate (n - xs.length) .raw, a + w * xs.length⟩

/-- The class of fixed-capacity vectors of `n` elements of `w` bytes; `tail` takes 8 bytes. -/
def svCls (α : Type) (n w : Nat) : Cls where
  Val := List α
  Mem := SV α
  width := n * w + 8
  fits xs := xs.length ≤ n
  make a xs := SV.at n w a xs
  read a m := SV.readFrom w m.tail a m.cells
  moveTo a b m := do
    let xs ← SV.readFrom w m.tail a m.cells
    .ok (SV.at n w b xs)

/-- HybridVector.hpp 593: `container`, a variant of a fixed-capacity vector and a vector; constructed with `xs` at address `a`. -/
def hvMake {α : Type} (n w : Nat) (a : Int) (xs : List α) : SV α ⊕ Vec α :=
  if xs.length ≤ n then .inl (SV.at n w a xs) else .inr ⟨xs.map .live, xs.length, xs.length⟩

def hvRead {α : Type} (w : Nat) (a : Int) : SV α ⊕ Vec α → Res (List α)
  | .inl m => SV.readFrom w m.tail a m.cells
  | .inr v => v.toList

/-- The class `HybridVector`; the index of the variant takes 8 bytes. -/
def hvCls (α : Type) (n w : Nat) : Cls where
  Val := List α
  Mem := SV α ⊕ Vec α
  width := n * w + 16
  fits _ := True
  make := hvMake n w
  read := hvRead w
  moveTo a b
    | .inl m => do
      let xs ← SV.readFrom w m.tail a m.cells
      .ok (.inl (SV.at n w b xs))
    | .inr v => .ok (.inr v)

/-- `CircularArray`: CircularArray.hpp 244-246: the storage and two addresses in it. -/
structure CA (α : Type) where
  cells : Cells α
  head : Int
  tail : Int
  deriving DecidableEq, Repr

/-- The cell address `p` designates in an array of `n` cells of `w` bytes at `a`. -/
def slot (n w : Nat) (a p : Int) : Option Nat :=
  if a ≤ p ∧ p < a + w * n ∧ (p - a) % w = 0 then some ((p - a) / w).toNat else none

/-- CircularArray.hpp 430-435 (`begin`) and `*`: the first element of a queue at address `a`. -/
def CA.front {α : Type} (w : Nat) (a : Int) (m : CA α) : Res α :=
  match slot m.cells.length w a m.head with
  | some k => m.cells.get k
  | none => .ub

/-- CircularArray.hpp 331-343: `size`; the capacity is one less than the number of cells. -/
def CA.size {α : Type} (w : Nat) (m : CA α) : Int :=
  if m.tail < m.head then (m.cells.length - 1 : Int) - ((m.head - m.tail) / w - 1) else (m.tail - m.head) / w

/-- CircularArray.hpp 516-524: `updateTerminal`. -/
def CA.wrap {α : Type} (w : Nat) (a : Int) (m : CA α) (p : Int) : Int := if p = a + w * m.cells.length then a else p

/-- CircularArray.hpp 355-376: `pushBack`. -/
def CA.pushBack {α : Type} (w : Nat) (a : Int) (m : CA α) (x : α) : Res (CA α) :=
  if m.size w ≠ m.cells.length - 1 then
    match slot m.cells.length w a m.tail with
    | some k => do
      let b ← m.cells.construct k x
      .ok { m with cells := b, tail := m.wrap w a (m.tail + w) }
    | none => .ub
  else .ok m

/-- CircularArray.hpp 420-428: `popFront`. -/
def CA.popFront {α : Type} (w : Nat) (a : Int) (m : CA α) : Res (CA α) :=
  if m.head ≠ m.tail then
    match slot m.cells.length w a m.head with
    | some k => do
      let b ← m.cells.destroy false k
      .ok { m with cells := b, head := m.wrap w a (m.head + w) }
    | none => .ub
  else .ok m

/-- CircularArray.hpp 263-266: default constructor, at address `a`, capacity `n`. -/
def CA.empty {α : Type} (n : Nat) (a : Int) : CA α := ⟨List.replicate (n + 1) .raw, a, a⟩

/-- A list object (List.hpp 326-330) whose bytes are carried from `o` to `o'`: sentinels, `head` and `tail` come along, and nothing is left at `o`. -/
def list {α : Type} (m : LL.Mem α) (o o' : Nat) : LL.Mem α :=
  { m with
    cell := fun q =>
      if q = .first o ∨ q = .last o then none
      else if q = .first o' then m.cell (.first o)
      else if q = .last o' then m.cell (.last o)
      else m.cell q
    head := fun i => if i = o' then m.head o else if i = o then .null else m.head i
    tail := fun i => if i = o' then m.tail o else if i = o then .null else m.tail i }

end Flame.Reloc
