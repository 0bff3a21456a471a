import Verif.Raw

/-!
# Model of `BasicString` (include/FlameIDE/Templates/String.hpp)

State: the allocation `buf` (empty for a null `head`), the field `stringCapacity` (`cap`) and `tail - head` (`len`).
`z` is `NULL_SYMBOL`.  Characters are trivially copyable, so destructor calls (436-437, 778-779) do nothing.

Simplifications: allocation succeeds and `sizeof(T) * count` does not wrap; a source C string or range does not alias the
string itself (self assignment is modelled separately); forming the pointer `head - 1` (517, 644) is not treated as `ub`.
Recursive calls take fuel.
-/

namespace Flame

/-- String.hpp 160-162. -/
structure Str (α : Type) where
  buf : Raw α
  cap : Nat
  len : Nat
  deriving Repr, DecidableEq

/-- A `PointerToConst`: null, or the readable memory it points to. -/
abbrev CPtr (α : Type) := Option (List α)

namespace Str
variable {α : Type} [DecidableEq α] (z : α)

/-- Scan of String.hpp 805: reading past the readable memory is `ub`. -/
def scan : List α → Res Nat
  | [] => .ub
  | c :: cs => if c = z then .ok 0 else do let n ← scan cs; .ok (n + 1)

/-- String.hpp 798-808. -/
def rawLen : CPtr α → Res Nat
  | none => .ok 0
  | some cs => scan z cs

/-- Copying `n` characters out of a C string through `pointer++`; null or short memory is `ub`. -/
def rawTake (p : CPtr α) (n : Nat) : Res (List α) :=
  if n = 0 then .ok [] else
  match p with
  | none => .ub
  | some cs => if n ≤ cs.length then .ok (cs.take n) else .ub

/-- String.hpp 188-193. -/
def empty : Str α := ⟨[], 0, 0⟩

/-- String.hpp 195-209: copy constructor. -/
def copy (s : Str α) : Res (Str α) := do
  let xs ← s.buf.rdRange 0 s.len
  let b : Raw α := List.replicate (s.len + 1) none
  let b ← b.wrList 0 xs
  let b ← b.wr s.len z
  .ok ⟨b, s.len + 1, s.len⟩

/-- String.hpp 211-221: move constructor: the new object and the source afterwards. -/
def moveCtor (s : Str α) : Str α × Str α := (s, empty)

/-- String.hpp 223-237: constructor from a C string. -/
def ofRaw (p : CPtr α) : Res (Str α) := do
  let n ← rawLen z p
  let b : Raw α := List.replicate (n + 1) none
  let xs ← rawTake p n
  let b ← b.wrList 0 xs
  let b ← b.wr n z
  .ok ⟨b, n + 1, n⟩

/-- String.hpp 431-441. -/
def clean (s : Str α) : Res (Str α) :=
  if s.cap ≠ 0 then do
    let b ← s.buf.wr 0 z
    .ok { s with buf := b, len := 0 }
  else .ok s

/-- String.hpp 534-556.  A null `head` is an empty `buf`. -/
def resize (s : Str α) (n : Nat) : Res (Str α) :=
  if s.buf ≠ [] then
    if s.cap < n then .ok { s with buf := s.buf.grow n, cap := n } else .ok s
  else do
    let b ← Raw.wr (List.replicate n none) 0 z
    .ok ⟨b, n, 0⟩

/-- String.hpp 558-562. -/
def reserve (s : Str α) (n : Nat) : Res (Str α) := resize z s (s.cap + n)

/-- String.hpp 792-796 (factors 3/2 at lines 12-13). -/
def nextCap (s : Str α) : Nat := s.cap * 3 / 2

/-- String.hpp 246-266: `operator=(const Me &)`, source a different object. `tail` is not updated. -/
def assign : Nat → Str α → Str α → Res (Str α)
  | 0, _, _ => .loop
  | f + 1, s, t =>
    if t.len ≤ s.cap then do
      let s ← clean z s
      let xs ← t.buf.rdRange 0 t.len
      let b ← s.buf.wrList 0 xs
      let b ← b.wr xs.length z
      .ok { s with buf := b }
    else do
      let s ← reserve z s (t.len - s.len)
      assign f s t

/-- String.hpp 246-266 with `&string == this`: `clean()` empties the source too. -/
def assignSelf (s : Str α) : Res (Str α) :=
  if s.len ≤ s.cap then do
    let s ← clean z s
    let xs ← s.buf.rdRange 0 s.len
    let b ← s.buf.wrList 0 xs
    let b ← b.wr xs.length z
    .ok { s with buf := b }
  else .loop

/-- String.hpp 268-286: move assignment between different objects: target and source afterwards. -/
def moveAssign (s t : Str α) : Res (Str α × Str α) := do
  let _ ← clean z s
  .ok (t, empty)

/-- String.hpp 288-313: `operator=(PointerToConst)`. -/
def assignRaw : Nat → Str α → CPtr α → Res (Str α)
  | 0, _, _ => .loop
  | f + 1, s, p => do
    let s ← clean z s
    let n ← rawLen z p
    if n + 1 ≤ s.cap then
      let xs ← rawTake p (n + 1)
      let b ← s.buf.wrList 0 xs
      let b ← b.wr n z
      .ok { s with buf := b, len := n }
    else
      let s ← reserve z s (n + 1 - s.len)
      assignRaw f s p

/-- String.hpp 564-578: `pushBack(const &)`. -/
def pushBack : Nat → Str α → α → Res (Str α)
  | 0, _, _ => .loop
  | f + 1, s, c =>
    if s.len < s.cap then do
      let b ← s.buf.wr s.len c
      let b ← b.wr (s.len + 1) z
      .ok { s with buf := b, len := s.len + 1 }
    else do
      let s ← resize z s s.nextCap
      pushBack f s c

/-- String.hpp 580-594: `pushBack(&&)`; the recursive call passes an lvalue and so picks `pushBack(const &)`. -/
def pushBackMove (f : Nat) (s : Str α) (c : α) : Res (Str α) :=
  if s.len + 1 < s.cap then do
    let b ← s.buf.wr s.len c
    let b ← b.wr (s.len + 1) z
    .ok { s with buf := b, len := s.len + 1 }
  else do
    let s ← resize z s s.nextCap
    pushBack z f s c

/-- String.hpp 596-621: `pushBack(PointerToConst)`. -/
def pushBackRaw : Nat → Str α → CPtr α → Res (Str α)
  | 0, _, _ => .loop
  | f + 1, s, p => do
    let n ← rawLen z p
    if s.len + n + 2 < s.cap then
      let xs ← rawTake p n
      let b ← s.buf.wrList s.len xs
      let b ← b.wr (s.len + n) z
      .ok { s with buf := b, len := s.len + n }
    else
      let s ← resize z s (if s.len + n + 2 < s.nextCap then s.nextCap else s.len + n + 2)
      pushBackRaw f s p

/-- String.hpp 623-631. -/
def popBack (s : Str α) : Res (Str α) :=
  if s.len ≠ 0 then do
    let b ← s.buf.wr (s.len - 1) z
    .ok { s with buf := b, len := s.len - 1 }
  else .ok s

/-- String.hpp 633-661 (and 663-692): `insert(it, character)`; a position beyond `end()` is `ub`. -/
def insert : Nat → Str α → Nat → α → Res (Str α)
  | 0, _, _, _ => .loop
  | f + 1, s, pos, c =>
    if s.len < pos then .ub
    else if s.len + 1 < s.cap then
      if pos = s.len then pushBack z (f + 1) s c
      else do
        let b ← s.buf.wr s.len z
        let b ← b.copyUp pos 1 (s.len - pos)
        let b ← b.wr pos c
        let b ← b.wr (s.len + 1) z
        .ok { s with buf := b, len := s.len + 1 }
    else do
      let s ← reserve z s s.nextCap
      insert f s pos c

/-- The loop of String.hpp 706-710. -/
def pushBackList (f : Nat) : Str α → List α → Res (Str α)
  | s, [] => .ok s
  | s, x :: xs => do
    let s ← pushBack z f s x
    pushBackList f s xs

/-- String.hpp 694-739: `insert(it, itBegin, itEnd)`.  In 736 `capacity() + (rangeSize - capacity())` is `rangeSize` in
wrapping arithmetic. -/
def insertRange : Nat → Str α → Nat → List α → Res (Str α)
  | 0, _, _, _ => .loop
  | f + 1, s, pos, xs =>
    if s.len < pos then .ub
    else if xs.length = 0 then .ok s
    else if xs.length + s.len < s.cap then
      if pos = s.len then pushBackList z (f + 1) s xs
      else do
        let b ← s.buf.wrList s.len (List.replicate xs.length z)
        let b ← b.copyUp pos xs.length (s.len - pos)
        let b ← b.wrList pos xs
        let b ← b.wr (s.len + xs.length) z
        .ok { s with buf := b, len := s.len + xs.length }
    else do
      let s ← resize z s xs.length
      insertRange f s pos xs

/-- String.hpp 741-747. -/
def insertRaw (f : Nat) (s : Str α) (pos : Nat) (p : CPtr α) : Res (Str α) := do
  let n ← rawLen z p
  let xs ← rawTake p n
  insertRange z f s pos xs

/-- String.hpp 749-766. -/
def erase (s : Str α) (pos : Nat) : Res (Str α) :=
  if s.len < pos then .ub
  else if pos = s.len then .ok s
  else if pos + 1 = s.len then popBack z s
  else do
    let b ← s.buf.copyDown (pos + 1) pos (s.len - (pos + 1))
    let b ← b.wr (s.len - 1) z
    .ok { s with buf := b, len := s.len - 1 }

/-- String.hpp 768-790; reversed iterators do nothing (774-775). -/
def eraseRange (s : Str α) (b e : Nat) : Res (Str α) :=
  if s.len < b ∨ s.len < e then .ub
  else if e < b then .ok s
  else if e - b = s.len then clean z s
  else if 0 < e - b then do
    let c ← s.buf.copyDown e b (s.len - e)
    let c ← c.wr (s.len - (e - b)) z
    .ok { s with buf := c, len := s.len - (e - b) }
  else .ok s

/-- String.hpp 365-370: `operator+=(const Me &)`: not implemented, returns `*this` unchanged. -/
def appendStr (s _t : Str α) : Str α := s

/-- String.hpp 356-362: `operator+=(IntType)`: not implemented. -/
def appendInt (s : Str α) (_n : Int) : Str α := s

/-- String.hpp 372-379: `operator+=(Range)`: not implemented. -/
def appendRange (s : Str α) (_xs : List α) : Str α := s

/-- String.hpp 397-411: `operator-=(Range<Iterator>)` and `operator-=(Range<ReverseIterator>)`: not implemented. -/
def subRange (s : Str α) (_b _e : Nat) : Str α := s

/-- String.hpp 381-395: `operator-=(Iterator)`, `operator-=(ReverseIterator)` (the wrapped iterator is passed on, so the character that the
reverse iterator refers to is the one at `pos`). -/
def subAt (s : Str α) (pos : Nat) : Res (Str α) := erase z s pos

/-- String.hpp 846-852: `operator+(string, string)`. -/
def concat (s t : Str α) : Res (Str α) := do
  let r ← copy z s
  .ok (appendStr r t)

/-- String.hpp 854-861: `operator+(string, C string)`. -/
def concatRaw (f : Nat) (s : Str α) (p : CPtr α) : Res (Str α) := do
  let r ← copy z s
  pushBackRaw z f r p

/-- String.hpp 863-870: `operator+(C string, string)`. -/
def rawConcat (p : CPtr α) (t : Str α) : Res (Str α) := do
  let r ← ofRaw z p
  .ok (appendStr r t)

/-! Observations -/

/-- Characters `data()[0 .. length())`. -/
def chars (s : Str α) : Res (List α) := s.buf.rdRange 0 s.len

/-- `data()` used as a C string: the characters before the first terminator. -/
def cString (s : Str α) : Res (List α) := go s.buf
where
  go : Raw α → Res (List α)
    | some c :: r => if c = z then .ok [] else do let cs ← go r; .ok (c :: cs)
    | _ => .ub

end Str
end Flame
