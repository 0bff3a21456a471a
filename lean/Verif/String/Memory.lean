import Verif.String.Model
import Verif.Own.Spec

/-!
# `BasicString` when memory runs out (include/FlameIDE/Templates/String.hpp over Allocator/ArrayAllocator.hpp)

`Verif/String/Model.lean` assumes that every allocation succeeds.  Here the allocator may answer null: `can n` says whether it can satisfy a
request for `n` characters (ArrayAllocator.hpp 118-137 over malloc/realloc).  The blocks handed out are numbered and recorded, so that a block
nobody can reach any more is visible.

Simplifications: a successful `realloc` is recorded as giving up the old block and handing out a new one (what `tmp == head`, 542, would mean for the
characters is the same); otherwise as in `Verif/String/Model.lean`.
-/

namespace Flame.StrMem
open Own (Ev)

/-- String.hpp 160-162, with the number of the block `head` points to and the allocator's record. -/
structure St (α : Type) where
  str : Str α
  blk : Option Nat
  next : Nat
  log : List Ev
  deriving Repr, DecidableEq

variable {α : Type} [DecidableEq α] (z : α) (can : Nat → Bool)

/-- free of a block; null is ignored (ArrayAllocator.hpp 149-154). -/
def freed (b : Option Nat) (l : List Ev) : List Ev :=
  match b with
  | some r => .closed r :: l
  | none => l

/-- String.hpp 534-556.  541-548: the result of `reallocateArray` is not tested; null becomes the new `head`, and `tail` lies `length()` behind it. -/
def resize (s : St α) (n : Nat) : Res (St α) :=
  if s.str.buf ≠ [] then
    if s.str.cap < n then
      if can n then
        .ok ⟨{ s.str with buf := s.str.buf.grow n, cap := n }, some s.next, s.next + 1, .made s.next :: freed s.blk s.log⟩
      else .ok { s with str := ⟨[], n, s.str.len⟩, blk := none }
    else .ok s
  else
    -- 552-553: the terminator is written through the result without a test
    if can n then do
      let b ← Raw.wr (List.replicate n none) 0 z
      .ok ⟨⟨b, n, 0⟩, some s.next, s.next + 1, .made s.next :: s.log⟩
    else .ub

/-- String.hpp 558-562. -/
def reserve (s : St α) (n : Nat) : Res (St α) := resize z can s (s.str.cap + n)

/-- String.hpp 431-441. -/
def clean (s : St α) : Res (St α) := do
  let t ← s.str.clean z
  .ok { s with str := t }

/-- String.hpp 239-244: destructor: what the allocator has recorded afterwards. -/
def drop (s : St α) : Res (List Ev) := do
  let s ← clean z s
  .ok (freed s.blk s.log)

/-- String.hpp 195-209: copy constructor; 199 does not test the result. -/
def copy (next : Nat) (log : List Ev) (t : Str α) : Res (St α) := do
  let xs ← t.buf.rdRange 0 t.len
  let b : Raw α := if can (t.len + 1) then List.replicate (t.len + 1) none else []
  let b ← b.wrList 0 xs
  let b ← b.wr t.len z
  .ok ⟨⟨b, t.len + 1, t.len⟩, some next, next + 1, .made next :: log⟩

/-- String.hpp 223-237: constructor from a C string; 227 does not test the result. -/
def ofRaw (next : Nat) (log : List Ev) (p : CPtr α) : Res (St α) := do
  let n ← Str.rawLen z p
  let b : Raw α := if can (n + 1) then List.replicate (n + 1) none else []
  let xs ← Str.rawTake p n
  let b ← b.wrList 0 xs
  let b ← b.wr n z
  .ok ⟨⟨b, n + 1, n⟩, some next, next + 1, .made next :: log⟩

/-- String.hpp 246-266: `operator=(const Me &)`, source a different object. -/
def assign : Nat → St α → Str α → Res (St α)
  | 0, _, _ => .loop
  | f + 1, s, t =>
    if t.len ≤ s.str.cap then do
      let s ← clean z s
      let xs ← t.buf.rdRange 0 t.len
      let b ← s.str.buf.wrList 0 xs
      let b ← b.wr xs.length z
      .ok { s with str := { s.str with buf := b } }
    else do
      let s ← reserve z can s (t.len - s.str.len)
      assign f s t

/-- String.hpp 288-313: `operator=(PointerToConst)`. -/
def assignRaw : Nat → St α → CPtr α → Res (St α)
  | 0, _, _ => .loop
  | f + 1, s, p => do
    let s ← clean z s
    let n ← Str.rawLen z p
    if n + 1 ≤ s.str.cap then
      let xs ← Str.rawTake p (n + 1)
      let b ← s.str.buf.wrList 0 xs
      let b ← b.wr n z
      .ok { s with str := { s.str with buf := b, len := n } }
    else
      let s ← reserve z can s (n + 1 - s.str.len)
      assignRaw f s p

/-- String.hpp 564-578: `pushBack(const &)`. -/
def pushBack : Nat → St α → α → Res (St α)
  | 0, _, _ => .loop
  | f + 1, s, c =>
    if s.str.len < s.str.cap then do
      let b ← s.str.buf.wr s.str.len c
      let b ← b.wr (s.str.len + 1) z
      .ok { s with str := { s.str with buf := b, len := s.str.len + 1 } }
    else do
      let s ← resize z can s s.str.nextCap
      pushBack f s c

/-- String.hpp 580-594: `pushBack(&&)`. -/
def pushBackMove (f : Nat) (s : St α) (c : α) : Res (St α) :=
  if s.str.len + 1 < s.str.cap then do
    let b ← s.str.buf.wr s.str.len c
    let b ← b.wr (s.str.len + 1) z
    .ok { s with str := { s.str with buf := b, len := s.str.len + 1 } }
  else do
    let s ← resize z can s s.str.nextCap
    pushBack z can f s c

/-- String.hpp 612-617: the capacity `pushBack(PointerToConst)` asks for. -/
def wanted (s : Str α) (n : Nat) : Nat := if s.len + n + 2 < s.nextCap then s.nextCap else s.len + n + 2

/-- String.hpp 596-621: `pushBack(PointerToConst)`. -/
def pushBackRaw : Nat → St α → CPtr α → Res (St α)
  | 0, _, _ => .loop
  | f + 1, s, p => do
    let n ← Str.rawLen z p
    if s.str.len + n + 2 < s.str.cap then
      let xs ← Str.rawTake p n
      let b ← s.str.buf.wrList s.str.len xs
      let b ← b.wr (s.str.len + n) z
      .ok { s with str := { s.str with buf := b, len := s.str.len + n } }
    else
      let s ← resize z can s (wanted s.str n)
      pushBackRaw f s p

/-- String.hpp 633-661 (and 663-692): `insert(it, character)`. -/
def insert : Nat → St α → Nat → α → Res (St α)
  | 0, _, _, _ => .loop
  | f + 1, s, pos, c =>
    if s.str.len < pos then .ub
    else if s.str.len + 1 < s.str.cap then
      if pos = s.str.len then pushBack z can (f + 1) s c
      else do
        let b ← s.str.buf.wr s.str.len z
        let b ← b.copyUp pos 1 (s.str.len - pos)
        let b ← b.wr pos c
        let b ← b.wr (s.str.len + 1) z
        .ok { s with str := { s.str with buf := b, len := s.str.len + 1 } }
    else do
      let s ← reserve z can s s.str.nextCap
      insert f s pos c

end Flame.StrMem
