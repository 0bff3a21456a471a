import Verif.Basic

/-!
# Model of circular and reverse iterators (include/FlameIDE/Templates/Iterator/Operators.hpp)

A position is the offset of the wrapped iterator from `range.begin()`; `n = range.end() - range.begin()` is the ring
size.  Offsets are integers, because intermediate results may lie outside the ring.
Simplification: pointer arithmetic is exact; the argument type is wide enough for its value.
-/

namespace Flame.CIter

/-- Operators.hpp 475-485: prefix `++` (CircularIterator.hpp 75, 108, 139). -/
def inc (n p : Int) : Int := if p + 1 = n then 0 else p + 1

/-- Operators.hpp 487-497: prefix `--`. -/
def dec (n p : Int) : Int := if p - 1 = -1 then n - 1 else p - 1

/-- Operators.hpp 10-16: postfix `++` used by the circular iterators (CircularIterator.hpp 73, 105, 140): the new position.
It does not wrap. -/
def incPostfix (_n p : Int) : Int := p + 1

/-- Operators.hpp 26-32: postfix `--` (CircularIterator.hpp 106, 142): the new position.  It does not wrap. -/
def decPostfix (_n p : Int) : Int := p - 1

/-- Operators.hpp 499-515: `+=` (C++ `%` truncates towards zero). -/
def plusAssign (n p k : Int) : Int :=
  let v := k.tmod n
  if p + v ≥ n then p - n + v else p + v

/-- Operators.hpp 517-533: `-=`. -/
def minusAssign (n p k : Int) : Int :=
  let v := k.tmod n
  if p - v < 0 then n - (0 - p + v) else p - v

/-- Operators.hpp 535-551 and 553-569: `operator[]`: the offset that is dereferenced. -/
def index (n p k : Int) : Int :=
  let v := k.tmod n
  if v > n - p then n - v else p + v

end Flame.CIter

namespace Flame.RIter

/-- Operators.hpp 34-39 (`++` of a reverse iterator moves the wrapped iterator back). -/
def inc (p : Int) : Int := p - 1
/-- Operators.hpp 49-54. -/
def dec (p : Int) : Int := p + 1
/-- Operators.hpp 163-169: `+=`. -/
def plusAssign (p k : Int) : Int := p - k
/-- Operators.hpp 171-177: `-=`. -/
def minusAssign (p k : Int) : Int := p + k
/-- Operators.hpp 158-161: difference of two reverse iterators (not sign-reversed). -/
def diff (a b : Int) : Int := a - b
/-- Operators.hpp 219-223: `operator>`. -/
def gt (a b : Int) : Bool := a ≤ b
/-- Operators.hpp 225-229: `operator<`. -/
def lt (a b : Int) : Bool := a ≥ b
/-- Operators.hpp 231-235: `operator>=`. -/
def ge (a b : Int) : Bool := a < b
/-- Operators.hpp 237-241: `operator<=`. -/
def le (a b : Int) : Bool := a > b
/-- Operators.hpp 243-255: `operator[]`: the position dereferenced. -/
def index (p k : Int) : Int := p - k

end Flame.RIter
