import Verif.Basic
import Verif.Bytes.Serial
import Verif.Own.Spec

/-!
# Ranges — include/FlameIDE/Templates/Range.hpp

Memory is a family of arrays.  A pointer denotes a place of an array (its end included), nothing, or was never given a value.  The
element type is that of the pointers; a byte range has its own memory, whose arrays are the bytes of the program's numbers.
-/

namespace Flame.RangeM
open BytesSpec (Byte)
open Own (upd)

/-- The memory: the elements of every array. -/
abbrev Mem (α : Type) := Nat → List α

/-- A pointer: null, place `i` of array `b`, or a variable nothing was ever stored in. -/
inductive Ptr where
  | null
  | place (b i : Nat)
  | unset
  deriving DecidableEq, Repr

/-- Range.hpp 33-34: the members. -/
structure Rng (It : Type) where
  first : It
  last : It
  deriving DecidableEq, Repr

/-- 17 `Range()`: pointers are left without a value. -/
def Rng.default : Rng Ptr := ⟨.unset, .unset⟩

/-- 81-84: the copy constructor; 19, 23, 24: move construction and the assignments, member by member (pointers and the library's iterators
are copied by a move). -/
def Rng.copy (r : Rng It) : Rng It := ⟨r.first, r.last⟩

/-- 86-89 with 129-136: `makeRange(itBegin, itEnd)`. -/
def ofPair (f l : It) : Rng It := ⟨f, l⟩

/-- 91-117: `begin()`, of either constness. -/
def Rng.begin (r : Rng It) : It := r.first

/-- 91-117: `end()`, of either constness. -/
def Rng.end (r : Rng It) : It := r.last

/-- `p + n` of pointers. -/
def add (m : Mem α) (p : Ptr) (n : Nat) : Res Ptr :=
  match p with
  | .null => if n = 0 then .ok .null else .ub
  | .place b i => if i + n ≤ (m b).length then .ok (.place b (i + n)) else .ub
  | .unset => .ub

/-- 138-143 and 161-166: `makeRange(array)`, `makeConstRange(array)`; `SIZE` is the number of elements. -/
def ofArray (m : Mem α) (b : Nat) : Res (Rng Ptr) := do
  let e ← add m (.place b 0) (m b).length
  .ok ⟨.place b 0, e⟩

/-- 145-150 and 168-173: `makeRange(data, size)`, `makeConstRange(data, size)`. -/
def ofPointer (m : Mem α) (p : Ptr) (n : Nat) : Res (Rng Ptr) := do
  let e ← add m p n
  .ok ⟨p, e⟩

/-- 194-217: `makeByteRange(value)`, `makeConstByteRange(value)` of the number whose bytes are array `b`; `n` is `sizeof`. -/
def ofValue (m : Mem Byte) (b n : Nat) : Res (Rng Ptr) := do
  let e ← add m (.place b 0) n
  .ok (ofPair (.place b 0) e)

/-- `p == q`: reading a variable without a value is undefined.  (The places of different arrays are taken to differ; the language leaves
that open for the end of one array and the beginning of another.) -/
def same : Ptr → Ptr → Res Bool
  | .unset, _ => .ub
  | _, .unset => .ub
  | p, q => .ok (p = q)

/-- `for (auto &x : range) body`: the body may replace the element and changes the program's state `σ`.  The loop is the language's:
compare with the end, bind the element, run the body, advance. -/
def each (g : α → σ → α × σ) : Nat → Mem α → Rng Ptr → σ → Res (Mem α × σ)
  | 0, _, _, _ => .loop
  | fuel + 1, m, r, s => do
      if ← same r.first r.last then .ok (m, s)
      else match r.first with
        | .place b i => match (m b)[i]? with
            | some x => each g fuel (upd m b ((m b).set i (g x s).1)) ⟨.place b (i + 1), r.last⟩ (g x s).2
            | none => .ub
        | _ => .ub

/-- The elements such a loop sees. -/
def seen (fuel : Nat) (m : Mem α) (r : Rng Ptr) : Res (List α) := do
  let x ← each (fun x l => (x, l ++ [x])) fuel m r []
  .ok x.2

/-- 119-127 `makeRange(container)`, 152-159 `makeConstRange(container)` with Common/Utils.hpp 422-432, 446-456 (the free `begin`, `end`,
`cbegin`, `cend` call the members), of a container whose `size` elements are the beginning of array `b` (Vector.hpp, Array.hpp, String.hpp:
`begin()` is the first place, `end()` the one `size` later). -/
def ofContainer (b size : Nat) : Rng Ptr := ofPair (.place b 0) (.place b size)

/-! ## Ranges of any iterators -/

/-- The same loop over iterators of any kind: `next` is `++`, `read` is `*` (none: undefined). -/
def eachIt [DecidableEq It] (next : It → It) (read : It → Option α) : Nat → Rng It → Res (List α)
  | 0, _ => .loop
  | fuel + 1, r =>
      if r.first = r.last then .ok []
      else match read r.first with
        | some x => do
            let xs ← eachIt next read fuel ⟨next r.first, r.last⟩
            .ok (x :: xs)
        | none => .ub

/-! ## Which makers of a container compile -/

/-- What matters of a container type: its iterator types, the results of its members (of the constness the maker has), and which iterator
types convert to which. -/
structure Cont (ι : Type) where
  iterator : ι
  constIterator : ι
  reverseIterator : ι
  constReverseIterator : ι
  /-- the result of `begin()`, `end()` -/
  begins : ι
  /-- the result of `cbegin()`, `cend()` -/
  cbegins : ι
  /-- the result of `rbegin()`, `rend()` -/
  rbegins : ι
  /-- the result of `crbegin()`, `crend()` -/
  crbegins : ι
  conv : ι → ι → Bool

/-- A call that does not compile, or the iterator type of the resulting range. -/
abbrev Compiled (ι : Type) := Option ι

/-- 119-127 `makeRange(container)`: the free `begin` returns an `Iterator`. -/
def makeRange (c : Cont ι) : Compiled ι := if c.conv c.begins c.iterator then some c.iterator else none

/-- 152-159 `makeConstRange(container)`. -/
def makeConstRange (c : Cont ι) : Compiled ι := if c.conv c.cbegins c.constIterator then some c.constIterator else none

/-- 175-182 `makeReverseRange(container)`: a `Range<ConstIterator>` is built of two `ReverseIterator`s and returned as
`Range<ReverseIterator>`; ranges of different iterators do not convert. -/
def makeReverseRange [DecidableEq ι] (c : Cont ι) : Compiled ι :=
  if c.conv c.rbegins c.reverseIterator ∧ c.conv c.reverseIterator c.constIterator ∧ c.constIterator = c.reverseIterator then
    some c.reverseIterator
  else none

/-- 184-191 `makeConstReverseRange(container)`: likewise. -/
def makeConstReverseRange [DecidableEq ι] (c : Cont ι) : Compiled ι :=
  if c.conv c.crbegins c.constReverseIterator ∧ c.conv c.constReverseIterator c.constIterator ∧ c.constIterator = c.constReverseIterator then
    some c.constReverseIterator
  else none

end Flame.RangeM
