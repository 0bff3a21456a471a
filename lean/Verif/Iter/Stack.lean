import Verif.Utils.TypeList

/-!
# Model of iterator adaptors stacked on each other (include/FlameIDE/Templates/Iterator)

`Iterator`, `ConstIterator`, `ReverseIterator` and `ConstReverseIterator` each wrap one iterator: a pointer, an iterator of a `List`, or again
such an adaptor.  The model says what an expression with such iterators means once the compiler has chosen the operator: the
position it denotes, the answer of a comparison, whether the element may be written, or that the program does not compile.

An iterator stands at an integer position of its sequence or is null.  In a `List` the next node has the next position.

Not modelled: `CircularIterator` (Verif/Circular) and the iterators of `HybridVector` (Verif/Hybrid/Iter); the explicitly chosen weaker categories; integer
arguments of types `IsIntegralTrait` does not know (C143); `MetaType`, taken to be the same for all iterators of a stack; raw pointers as
operands beside an adaptor.
-/

namespace Flame.IterStack
open TypeList (Ct)

/-- The four adaptors. -/
inductive Kind where
  | iter | constIter | reverse | constReverse
  deriving DecidableEq, Repr

/-- Does the adaptor move its wrapped iterator the other way?  ReverseIterator.hpp 62-66, 102-106, ConstReverseIterator.hpp 63-67, 99-103. -/
def Kind.isReverse : Kind → Bool
  | .iter | .constIter => false
  | .reverse | .constReverse => true

/-- `ITERATOR_ACCESS` of the parent class: Iterator.hpp 140, 177, ConstIterator.hpp 197, ReverseIterator.hpp 42, 82, ConstReverseIterator.hpp 43, 80. -/
def Kind.isConst : Kind → Bool
  | .iter | .reverse => false
  | .constIter | .constReverse => true

/-- An iterator type over elements of one type `T`. -/
inductive Ty where
  /-- `T *`, or `const T *` -/
  | ptr (c : Bool)
  /-- List.hpp 67-152 `ListIterator`, 154-231 `ListConstIterator` -/
  | node (c : Bool)
  /-- an adaptor whose `Traits::Type` is `T`, or `const T` -/
  | adapt (k : Kind) (t : Bool) (inner : Ty)
  deriving DecidableEq, Repr

namespace Ty

/-- IteratorTraits.hpp 28-38 `GetType`: is `Type` const?  Defaults.hpp 65-67: the `Type` of `ContainerTraits<const T>` is `const T`.  The traits of
both list iterators are those of `T`. -/
def typeConst : Ty → Bool
  | .ptr c => c
  | .node _ => false
  | .adapt _ t _ => t

/-- The adaptor with its default `Traits` (Iterator.hpp 15-22 and the like, IteratorTraits.hpp 55-57). -/
def std (k : Kind) (inner : Ty) : Ty := .adapt k inner.typeConst inner

/-- IteratorTraits.hpp 40-53 `GetIteratorInfo::CATEGORY`: random access?  (Otherwise bidirectional.) -/
def random : Ty → Bool
  | .ptr _ => true
  | .node _ => false
  | .adapt _ _ i => i.random

/-- Operators.hpp 3-8, 33-38 (`++`, `fwd`) and 18-23, 48-53 (`--`), List.hpp 98-107, 115-124, 185-194, 202-211: one step of the wrapped iterator. -/
def step : Ty → Bool → Int → Int
  | .ptr _, fwd, p => if fwd then p + 1 else p - 1
  | .node _, fwd, p => if fwd then p + 1 else p - 1
  | .adapt k _ i, fwd, p => i.step (if k.isReverse then !fwd else fwd) p

/-- Operators.hpp 117-131, 163-177: `+= v` (`fwd`) and `-= v` of a random access iterator; through them 87-115, 133-161 `+ v` and `- v`. -/
def jump : Ty → Bool → Int → Int → Int
  | .ptr _, fwd, v, p => if fwd then p + v else p - v
  | .node _, _, _, p => p
  | .adapt k _ i, fwd, v, p => i.jump (if k.isReverse then !fwd else fwd) v p

/-- BaseIterator.hpp 102-114, 116-129: `wrappedIterator == iterator.wrappedIterator`, with the outcome of the innermost comparison of pointers.
`wrappedIterator` is `mutable` (66), so an inner comparison never has a const left operand. -/
def eqMember : Ty → Option Int → Option Int → Bool
  | .ptr _, p, q => decide (p = q)
  | .node _, p, q => decide (p = q)
  | .adapt _ _ i, p, q => i.eqMember p q

/-- BaseIterator.hpp 89-100: `operator bool` down to the pointer. -/
def truth : Ty → Option Int → Bool
  | .ptr _, p => p.isSome
  | .node _, p => p.isSome
  | .adapt _ _ i, p => i.truth p

end Ty

/-- The comparisons by order. -/
inductive Rel where
  | lt | gt | le | ge
  deriving DecidableEq, Repr

/-- What the comparison says about numbers. -/
def Rel.holds : Rel → Int → Int → Bool
  | .lt, a, b => decide (a < b)
  | .gt, a, b => decide (b < a)
  | .le, a, b => decide (a ≤ b)
  | .ge, a, b => decide (b ≤ a)

/-- Operators.hpp 219-241: the comparison a reverse iterator asks of its wrapped iterators. -/
def Rel.flip : Rel → Rel
  | .gt => .le
  | .lt => .ge
  | .ge => .lt
  | .le => .gt

namespace Ty

/-- Operators.hpp 179-201, 219-241: the comparison operators of random access iterators. -/
def relMember : Ty → Rel → Int → Int → Bool
  | .ptr _, r, a, b => r.holds a b
  | .node _, r, a, b => r.holds a b
  | .adapt k _ i, r, a, b => i.relMember (if k.isReverse then r.flip else r) a b

/-- Is there an operator `r` that may be called on a left operand with the given constness?  Random access adaptors only (Iterator.hpp 138-172: bidirectional
ones declare none, nor do the list iterators); 180 `operator>` of the forward adaptors is the only one that is a const member. -/
def hasRel : Ty → Bool → Rel → Bool
  | .ptr _, _, _ => true
  | .node _, _, _ => false
  | .adapt k _ i, constLeft, r => i.random && (!constLeft || (r == .gt && !k.isReverse))

/-- Do the two types derive from the same `BaseIterator` (Iterator.hpp 176-179, ReverseIterator.hpp 81-84)?  Its arguments are the wrapped type, the category, the
access and the traits, so `Iterator` and `ReverseIterator` of one iterator share it. -/
def sameBase : Ty → Ty → Bool
  | .adapt k t i, .adapt k' t' i' => k.isConst == k'.isConst && t == t' && i == i'
  | a, b => a == b

/-- Can `b` be turned into `a` by the constructor from the wrapped iterator (Iterator.hpp 190)? -/
def converts : Ty → Ty → Bool
  | .adapt _ _ i, b => i == b
  | _, _ => false

/-- Can the class be instantiated?  The two `operator[]` of a random access `Iterator` (Operators.hpp 203-217, Iterator.hpp 211-212) become the same declaration if `Reference` is
`ConstReference`, that is for `const T` (Defaults.hpp 65-69). -/
def wf : Ty → Bool
  | .ptr _ => true
  | .node _ => true
  | .adapt k t i => i.wf && !(k == .iter && t && i.random)

end Ty

/-- `a == b`, the left operand const or not.  BaseIterator.hpp 51: the operator is not a const member and takes the base class, which is built from the
wrapped iterator only by a protected constructor (60-64).  Where it cannot be called, both operands convert to `bool` (49) and the numbers are compared. -/
def eqExpr (A : Ty) (ca : Bool) (B : Ty) (p q : Option Int) : Ct Bool :=
  if A.wf = false ∨ B.wf = false then .error
  else if A.sameBase B = true ∧ ca = false then .val (A.eqMember p q)
  else if A.converts B = true ∧ ca = false then .error
  else .val (A.truth p == B.truth q)

/-- `a != b`: BaseIterator.hpp 52, likewise. -/
def neExpr (A : Ty) (ca : Bool) (B : Ty) (p q : Option Int) : Ct Bool :=
  if A.wf = false ∨ B.wf = false then .error
  else if A.sameBase B = true ∧ ca = false then .val (!A.eqMember p q)
  else if A.converts B = true ∧ ca = false then .error
  else .val (A.truth p != B.truth q)

/-- `bool` as a number. -/
def num (b : Bool) : Int := if b then 1 else 0

/-- `a < b` and so on, for iterators that are not null: the member operator, which takes its own type or what converts to it, or the comparison of truth values. -/
def relExpr (A : Ty) (ca : Bool) (B : Ty) (r : Rel) (a b : Int) : Ct Bool :=
  if A.wf = false ∨ B.wf = false then .error
  else if (A = B ∨ A.converts B = true) ∧ A.hasRel ca r = true then .val (A.relMember r a b)
  else .val (r.holds (num (A.truth (some a))) (num (B.truth (some b))))

/-- Operators.hpp 112-115, 158-161: the difference of two iterators of one type. -/
def diffMember : Ty → Int → Int → Int
  | .ptr _, a, b => a - b
  | .node _, a, b => a - b
  | .adapt _ _ i, a, b => diffMember i a b

/-- `a - b`, both not null.  A random access adaptor takes another type by the template of Operators.hpp 104-110, whose assertion then fails; bidirectional iterators
have no such operator, so the truth values are subtracted. -/
def diffExpr (A B : Ty) (a b : Int) : Ct Int :=
  if A.wf = false ∨ B.wf = false then .error
  else if A.random = true then (if A = B then .val (diffMember A a b) else .error)
  else .val (num (A.truth (some a)) - num (B.truth (some b)))

/-- `*it`: may the element be written (`false`) or only read (`true`)?  Operators.hpp 63-67, 75-79; List.hpp 132-139, 219-222.  An object that is not const uses the operator
returning `Reference` if the class has it (not the const adaptors); it must be able to bind to what the wrapped iterator yields. -/
def deref : Ty → Bool → Ct Bool
  | .ptr c, _ => .val c
  | .node c, constObj => .val (c || constObj)
  | .adapt k t i, constObj =>
    match deref i false with
    | .error => .error
    | .val c =>
      if k.isConst = true ∨ constObj = true then .val true
      else if c = true ∧ t = false then .error
      else .val t

/-- `*it` in a program, with the instantiation of the type. -/
def derefExpr (A : Ty) (constObj : Bool) : Ct Bool := if A.wf = false then .error else deref A constObj

/-- `it[v]`: the position read and whether it may only be read.  `Iterator` declares two operators that differ in the result only (Operators.hpp 203-217, Iterator.hpp 211-212): the
call is ambiguous; neither is a const member.  `ConstIterator` has the second one only.  The reverse adaptors, const or not, return `Reference` unless the
object is const (243-255). -/
def index : Ty → Bool → Int → Int → Ct (Int × Bool)
  | .ptr c, _, v, p => .val (p + v, c)
  | .node _, _, _, _ => .error
  | .adapt .iter _ _, _, _, _ => .error
  | .adapt .constIter _ i, constObj, v, p =>
    if constObj = true ∨ i.random = false then .error
    else
      match index i false v p with
      | .error => .error
      | .val (x, _) => .val (x, true)
  | .adapt _ t i, constObj, v, p =>
    if i.random = false then .error
    else
      match deref i false with
      | .error => .error
      | .val c =>
        if constObj = true then .val (i.jump false v p, true)
        else if c = true ∧ t = false then .error
        else .val (i.jump false v p, t)

/-- `it[v]` in a program. -/
def indexExpr (A : Ty) (constObj : Bool) (v p : Int) : Ct (Int × Bool) := if A.wf = false then .error else index A constObj v p

/-- How many reverse adaptors a stack has. -/
def reverses : Ty → Nat
  | .ptr _ => 0
  | .node _ => 0
  | .adapt k _ i => reverses i + (if k.isReverse then 1 else 0)

end Flame.IterStack
