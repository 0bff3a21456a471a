import Verif.Basic

/-!
# Comparison, alignment and pointer utilities — include/FlameIDE/Common/Utils.hpp
-/

namespace Flame.Utils

/-- Utils.hpp 392-399: the loop of `isEqual(start1, end1, start2, end2)`; what is left of the two ranges.  `ne` is `operator!=`
between the element types.  (382-388: the `static_assert` is inverted, so the function compiles only for ranges whose element
types differ.) -/
def isEqualRange {α β : Type} (ne : α → β → Bool) : List α → List β → Bool
  | a :: as, b :: bs => if ne a b then false else isEqualRange ne as bs
  | _, _ => true

/-- Utils.hpp 414-418: the loop of `isEqual(const T &, const T &)`: what is left of the two objects' bytes, and `result`. -/
def isEqualLoop {β : Type} [DecidableEq β] : List β → List β → Bool → Bool
  | x :: xs, y :: ys, true => isEqualLoop xs ys (decide (x = y))
  | _, _, r => r

/-- Utils.hpp 402-420; both objects have `sizeof(T)` bytes. -/
def isEqualBytes {β : Type} [DecidableEq β] (x y : List β) : Bool := isEqualLoop x y true

/-- A pointer's 64 bits as `Types::ptrint_t` (`intptr_t`). -/
def signed64 (p : Nat) : Int := if p < 2 ^ 63 then p else (p : Int) - 2 ^ 64

/-- Utils.hpp 500-511 and 513-525: `alignedPointer`; `a` is `alignof(T)`, the null pointer is `0`.
`value % alignof(T)` is computed in `size_t`; the addition is signed, so overflow is undefined. -/
def alignedPointer (a p : Nat) : Res Nat :=
  if p = 0 then .ok 0
  else
    let value := signed64 p
    let u := (value % 2 ^ 64).toNat
    let shift := if u % a ≠ 0 then a - u % a else 0
    if value + shift < 2 ^ 63 then .ok ((value + shift) % 2 ^ 64).toNat else .ub

/-- Utils.hpp 545-548: the loop of `copy(dst, src, size)` over the bytes of two different objects. -/
def copyBytes {β : Type} : Nat → List β → List β → Res (List β)
  | 0, dst, _ => .ok dst
  | n + 1, _ :: dst, s :: src => match copyBytes n dst src with
    | .ok r => .ok (s :: r)
    | .ub => .ub
    | .loop => .loop
  | _ + 1, _, _ => .ub

/-- Utils.hpp 551-560: `length`; `mem` is what is readable from `array` on, `z` is `T{}`. -/
def length {β : Type} [DecidableEq β] (z : β) : List β → Nat → Res Nat
  | [], _ => .ub
  | x :: xs, n => if x ≠ z then length z xs (n + 1) else .ok n

/-- Utils.hpp 562-568. -/
def maximum (a b : Int) : Int := if a > b then a else b

/-- Utils.hpp 570-576. -/
def minimum (a b : Int) : Int := if b > a then a else b

end Flame.Utils
