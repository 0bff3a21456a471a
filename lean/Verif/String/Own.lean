import Verif.String.Model

/-!
# `BasicString` with arguments that refer to its own characters (include/FlameIDE/Templates/String.hpp)

Characters are trivially copyable: moving one leaves it.  A pointer, reference or iterator into the storage dangles once `resize` (534-556)
has moved the storage; reading through it is `ub`.
-/

namespace Flame
namespace Str
variable {α : Type} [DecidableEq α] (z : α)

/-- String.hpp 798-808 on `data() + k`, the storage from `k` on. -/
def scanOwn : Raw α → Res Nat
  | [] => .ub
  | none :: _ => .ub
  | some c :: cs => if c = z then .ok 0 else do let n ← scanOwn cs; .ok (n + 1)

/-- String.hpp 564-578 with `object` referring to character `i`. -/
def pushBackOwn (s : Str α) (i : Nat) : Res (Str α) :=
  if s.len < s.cap then do
    let c ← s.buf.rd i
    let b ← s.buf.wr s.len c
    let b ← b.wr (s.len + 1) z
    .ok { s with buf := b, len := s.len + 1 }
  else if s.cap < s.nextCap then .ub
  else .loop

/-- String.hpp 596-621 with `array` equal to `data() + k`. -/
def pushBackRawOwn (s : Str α) (k : Nat) : Res (Str α) := do
  let n ← scanOwn z (s.buf.drop k)
  if s.len + n + 2 < s.cap then
    let b ← s.buf.copyDown k s.len n
    let b ← b.wr (s.len + n) z
    .ok { s with buf := b, len := s.len + n }
  else if s.cap < (if s.len + n + 2 < s.nextCap then s.nextCap else s.len + n + 2) then .ub
  else .loop

/-- String.hpp 288-313 with `array` equal to `data() + k`: line 291 empties the string before anything is read. -/
def assignRawOwn (s : Str α) (k : Nat) : Res (Str α) := do
  let s ← clean z s
  let n ← scanOwn z (s.buf.drop k)
  if n + 1 ≤ s.cap then
    let b ← s.buf.copyDown k 0 (n + 1)
    let b ← b.wr n z
    .ok { s with buf := b, len := n }
  else if s.cap < s.cap + (n + 1 - s.len) then .ub
  else .loop

/-- String.hpp 268-286 with `&string == this`: the storage is freed (274), lines 278-280 copy members to themselves and 282-283 reset them. -/
def moveAssignSelf (s : Str α) : Res (Str α) := do
  let _ ← clean z s
  .ok empty

/-- String.hpp 633-661 (and 663-692) with `object` referring to character `i`: line 650 reads it after the shift. -/
def insertOwn (s : Str α) (pos i : Nat) : Res (Str α) :=
  if s.len < pos then .ub
  else if s.len + 1 < s.cap then
    if pos = s.len then pushBackOwn z s i
    else do
      let b ← s.buf.wr s.len z
      let b ← b.copyUp pos 1 (s.len - pos)
      let c ← b.rd i
      let b ← b.wr pos c
      let b ← b.wr (s.len + 1) z
      .ok { s with buf := b, len := s.len + 1 }
  else if s.cap < s.cap + s.nextCap then .ub
  else .loop

/-- The loop of String.hpp 706-710 over `n` of the string's own characters. -/
def pushBackOwnLoop : Str α → Nat → Nat → Res (Str α)
  | s, _, 0 => .ok s
  | s, i, n + 1 => do
    let s ← pushBackOwn z s i
    pushBackOwnLoop s (i + 1) n

/-- String.hpp 694-739 (and 741-747) with `[itBegin, itEnd)` the string's own characters from `b` up to `e`.  Line 736 asks for `e - b`
characters in wrapping arithmetic. -/
def insertRangeOwn (s : Str α) (pos b e : Nat) : Res (Str α) :=
  if s.len < pos ∨ s.len < e ∨ e < b then .ub
  else if e - b = 0 then .ok s
  else if (e - b) + s.len < s.cap then
    if pos = s.len then pushBackOwnLoop z s b (e - b)
    else do
      let c ← s.buf.wrList s.len (List.replicate (e - b) z)
      let c ← c.copyUp pos (e - b) (s.len - pos)
      let c ← c.copyDown b pos (e - b)
      let c ← c.wr (s.len + (e - b)) z
      .ok { s with buf := c, len := s.len + (e - b) }
  else if s.cap < e - b then .ub
  else .loop

/-- `s += p` with `p` of type `T *` (or `T[N]`, not `const`): overload resolution prefers the template `operator+=(IntType)` (String.hpp 356-362) with
`IntType = T *`, which needs no conversion, to `operator+=(PointerToConst)` (348-353); the template is not implemented. -/
def appendMutable (s : Str α) (_p : CPtr α) : Str α := s

end Str
end Flame
