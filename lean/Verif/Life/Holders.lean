import Verif.Own.Spec

/-!
# Small holders of objects and calls: InitializerList, AlignObject, RaiiCaller

Lifetimes are logged with the events of `Verif.Own.Spec`, newest first: `made r` a constructor call, `used r` an access, `closed r` a
destructor call.
-/

namespace Flame.Life
open Flame.Own

/-! ## Templates/InitializerList.hpp -/

/-- InitializerList.hpp 84-86: the number of elements in use and the array of `SIZE` elements. -/
structure IList (V : Type) where
  size : Nat
  cells : List V

variable {V : Type}

/-- InitializerList.hpp 56-83 `Helper::init`: argument after argument is assigned to element after element. -/
def IList.init : List V → Nat → List V → List V
  | [], _, cells => cells
  | a :: args, i, cells => IList.init args (i + 1) (cells.set i a)

/-- InitializerList.hpp 95-101 the constructor: the elements are default constructed (`dflt`), the first ones assigned.  `none`: no arguments (no
`Helper<>`) or too many (`static_assert`), a program that does not compile. -/
def IList.make (SIZE : Nat) (dflt : V) (args : List V) : Option (IList V) :=
  if args = [] ∨ SIZE < args.length then none
  else some ⟨args.length, IList.init args 0 (List.replicate SIZE dflt)⟩

/-- InitializerList.hpp 103-107 `size()`. -/
def IList.count (l : IList V) : Nat := l.size

/-- InitializerList.hpp 109-113 `begin()` and 123-127 `end()`: indices into the array. -/
def IList.begin (_ : IList V) : Nat := 0
def IList.end (l : IList V) : Nat := l.begin + l.count

/-- Reading from `begin()` up to `end()`; an index outside of the array is undefined. -/
def IList.read (l : IList V) : Nat → Nat → Res (List V)
  | _, 0 => .ok []
  | i, k + 1 => match l.cells[i]? with
    | none => .ub
    | some v => match l.read (i + 1) k with
      | .ok vs => .ok (v :: vs)
      | .ub => .ub
      | .loop => .loop

def IList.elements (l : IList V) : Res (List V) := l.read l.begin (l.end - l.begin)

/-- The log after construction of a list of `n` arguments: element `i` is resource `i`. -/
def IList.birth (SIZE n : Nat) : List Ev :=
  ((List.range SIZE).map Ev.made ++ (List.range n).map Ev.used).reverse

/-- InitializerList.hpp 137-142 the destructor: the elements from `begin()` to `end()` are destroyed by hand (`it.~T()`), then the member
array destroys all of its elements, the last one first. -/
def IList.death (SIZE n : Nat) (log : List Ev) : List Ev :=
  (List.range SIZE).map Ev.closed ++ ((List.range n).reverse.map Ev.closed ++ log)

/-! ## Templates/AlignObject.hpp and Templates/RaiiCaller.hpp -/

/-- Variables that hold something, the log, and the number of the next resource. -/
structure Guards where
  own : Nat → Option Nat
  log : List Ev
  next : Nat

def Guards.init : Guards := ⟨fun _ => none, [], 0⟩

inductive GOp where
  /-- construct variable `i` -/
  | make (i : Nat)
  /-- copy construct variable `j` from variable `i` -/
  | copy (i j : Nat)
  /-- the variable's lifetime ends -/
  | destroy (i : Nat)

/-- RaiiCaller.hpp 11-32: construction runs `ctorCall` (logged as `made`; the constructor without it just starts the duty), destruction runs `dtorCall`
(logged as `closed`).  There is no declared copy constructor, so the implicit one copies the callable (42-46 `makeRaiiCaller`
returns by value: with copy elision that is `make`). -/
def raiiStep (s : Guards) : GOp → Res Guards
  | .make i => .ok { own := upd s.own i (some s.next), log := .made s.next :: s.log, next := s.next + 1 }
  | .copy i j => .ok { s with own := upd s.own j (s.own i) }
  | .destroy i => match s.own i with
    | none => .ub
    | some k => .ok { s with own := upd s.own i none, log := .closed k :: s.log }

/-- AlignObject.hpp 93-117: the constructor with arguments creates an object in the bytes, the destructor's call of `~T()` is commented out; the
implicit copy constructor copies the bytes. -/
def alignStep (s : Guards) : GOp → Res Guards
  | .make i => .ok { own := upd s.own i (some s.next), log := .made s.next :: s.log, next := s.next + 1 }
  | .copy i j => .ok { s with own := upd s.own j (s.own i) }
  | .destroy i => match s.own i with
    | none => .ub
    | some _ => .ok { s with own := upd s.own i none }

end Flame.Life
