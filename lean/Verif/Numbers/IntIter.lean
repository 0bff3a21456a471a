import Verif.Numbers.CInt

/-!
# Integer iterators — include/FlameIDE/Templates/IntegerIterator.hpp, Iterator/Operators.hpp 259-433, Range.hpp

The iterator is its number, an integer of type `t`.  `operator[]` and `n + iterator` do not compile when used (two overloads that differ in
the return type only; a non-constant operator called on a constant object) and are not modelled.
-/

namespace Flame.IntIter

open CInt

/-- Iterator/Operators.hpp 342-347, 313-319: `+=` and `+` with an integer of type `u`. -/
def plus (t u : IT) (x n : Int) : Res Int := (arithOp .add t u x n).bind fun r => .ok (t.cast r)

/-- Iterator/Operators.hpp 349-354, 327-333: `-=` and `-` with an integer of type `u`. -/
def minus (t u : IT) (x n : Int) : Res Int := (arithOp .sub t u x n).bind fun r => .ok (t.cast r)

/-- Iterator/Operators.hpp 259-272: `++`. -/
def inc (t : IT) (x : Int) : Res Int := plus t .i32 x 1

/-- Iterator/Operators.hpp 335-340: difference, converted to `ssize_t` after the subtraction. -/
def diff (t : IT) (x y : Int) : Res Int := (arithOp .sub t t x y).bind fun r => .ok (IT.i64.cast r)

/-- A `for` loop over `makeRange(b, e)` (Range.hpp 130-137; SimpleAlgorithms.hpp 108-115): the numbers visited. -/
def visit (t : IT) (e : Int) : Nat → Int → Res (List Int)
  | 0, _ => .loop
  | f + 1, x =>
    if x = e then .ok []
    else match inc t x with
      | .ok x' => match visit t e f x' with
        | .ok l => .ok (x :: l)
        | .ub => .ub
        | .loop => .loop
      | .ub => .ub
      | .loop => .loop

end Flame.IntIter
