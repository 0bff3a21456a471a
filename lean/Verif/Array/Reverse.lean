import Verif.Array.Model
import Verif.Vector.Model
import Verif.String.Model

/-!
# Backward traversal of the containers that keep their elements side by side

include/FlameIDE/Templates/{Array,Vector,String,HybridVector}.hpp: `rbegin()`, `rend()` and a range-for over reverse iterators
(Iterator/Operators.hpp 34-39, 63-73, BaseIterator.hpp 116-129).

A pointer is its offset from `head`, in elements.  `strict` chooses how forming a pointer outside `head .. head + n` is taken, `n` being
the size of the allocation: as undefined behaviour, which it is by the language, or as the subtraction of addresses, which is what the
usual machines do.
-/

namespace Flame.Reverse
variable {α : Type u}

/-- Forming the pointer `head + p` in an allocation of `n` elements. -/
def form (strict : Bool) (n : Nat) (p : Int) : Res Int := if strict ∧ (p < 0 ∨ (n : Int) < p) then .ub else .ok p

/-- `for (auto &i : Range(b, e))` with reverse iterators: `!=` compares the wrapped pointers, `*` reads through them, `++` decrements. -/
def walk (strict : Bool) (n : Nat) (rd : Nat → Res α) : Nat → Int → Int → Res (List α)
  | 0, _, _ => .loop
  | f + 1, p, e =>
    if p = e then .ok []
    else if p < 0 then .ub
    else match rd p.toNat with
      | .ok x => match form strict n (p - 1) with
        | .ok q => match walk strict n rd f q e with
          | .ok xs => .ok (x :: xs)
          | .ub => .ub
          | .loop => .loop
        | .ub => .ub
        | .loop => .loop
      | .ub => .ub
      | .loop => .loop

/-- `rbegin()` is `tail - 1` and `rend()` is `head - 1`. -/
def backward (strict : Bool) (n : Nat) (rd : Nat → Res α) (size : Nat) : Res (List α) :=
  match form strict n ((size : Int) - 1), form strict n (-1) with
  | .ok b, .ok e => walk strict n rd (size + 1) b e
  | _, _ => .ub

/-- Array.hpp 718-744. -/
def ofArray (strict : Bool) (s : SVec α) : Res (List α) := backward strict s.buf.length s.buf.get s.size

/-- Vector.hpp 644-654, 680-690; HybridVector.hpp 1534-1570, 1622-1658 for the container it holds. -/
def ofVector (strict : Bool) (v : Vec α) : Res (List α) := backward strict v.buf.length v.buf.get v.size

/-- String.hpp 471-483, 513-525. -/
def ofString {α : Type} (strict : Bool) (s : Str α) : Res (List α) := backward strict s.buf.length s.buf.rd s.len

end Flame.Reverse
