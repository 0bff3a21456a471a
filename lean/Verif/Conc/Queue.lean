import Verif.Conc.Locked
import Verif.Circular.Iterator

/-!
# `QueuedArray<Type, SIZE>` — src/Os/Async/Network/QueuedArray.hpp

Simplifications: the allocation in `init` succeeds; iterators are positions in the current array (a circular iterator
over the whole array; `++` is `CIter.inc`, Operators.hpp 475-485); copying `Type` is one access.
-/

namespace Flame.Conc.Queue

/-- QueuedArray.hpp 32-36: `pointer`, `first`, `last`, `count`; the lock is part of the machine. -/
structure Q (V : Type) where
  buf : Option (List V)
  first : Nat
  last : Nat
  count : Nat
  deriving DecidableEq

/-- A queue before `init` (QueuedArray.hpp 32-36). -/
def Q.fresh {V : Type} : Q V := { buf := none, first := 0, last := 0, count := 0 }

/-- A queue after its first `init(iv)`. -/
def Q.inited {V : Type} (n : Nat) (iv : V) : Q V := { buf := some (List.replicate n iv), first := 0, last := 0, count := 0 }

inductive Op (V : Type) where
  | test
  | init (iv : V)
  | push (v : V)
  | pop (iv : V)
  deriving DecidableEq

inductive Ret (V : Type) where
  | bool (b : Bool)
  | value (v : V)
  deriving DecidableEq

/-- Program points. -/
inductive L (V : Type) where
  | test
  | initAlloc (iv : V)
  | initIter
  | pushTest (v : V)
  | pushWrite (v : V)
  | pushAdvance
  | pushCount
  | popTest (iv : V)
  | popRead (iv : V)
  | popClear (iv v : V)
  | popAdvance (v : V)
  | popCount (v : V)
  deriving DecidableEq

/-- Operators.hpp 475-485 on the array of `n` elements. -/
def advance (n p : Nat) : Nat := (CIter.inc n p).toNat

/-- QueuedArray.hpp 50-55 (`operator bool`), 57-73 (`init`; `count` is not reset), 75-88 (`push`; a null `pointer` is
dereferenced), 90-105 (`pop`). -/
def obj {V : Type} (n : Nat) : Obj (Q V) (L V) (Op V) (Ret V) where
  enter
    | .test => .test
    | .init iv => .initAlloc iv
    | .push v => .pushTest v
    | .pop iv => .popTest iv
  body l m := match l with
    | .test => .ok (m, .inr (.bool m.buf.isSome))
    | .initAlloc iv => .ok ({ m with buf := some (List.replicate n iv) }, .inl .initIter)
    | .initIter => .ok ({ m with first := 0, last := 0 }, .inr (.bool true))
    | .pushTest v => match m.buf with
      | none => .ub
      | some _ => if m.count = n then .ok (m, .inr (.bool false)) else .ok (m, .inl (.pushWrite v))
    | .pushWrite v => match m.buf with
      | none => .ub
      | some b => if m.last < b.length then .ok ({ m with buf := some (b.set m.last v) }, .inl .pushAdvance) else .ub
    | .pushAdvance => .ok ({ m with last := advance n m.last }, .inl .pushCount)
    | .pushCount => .ok ({ m with count := m.count + 1 }, .inr (.bool true))
    | .popTest iv => if m.count = 0 then .ok (m, .inr (.bool false)) else .ok (m, .inl (.popRead iv))
    | .popRead iv => match m.buf with
      | none => .ub
      | some b => match b[m.first]? with
        | none => .ub
        | some v => .ok (m, .inl (.popClear iv v))
    | .popClear iv v => match m.buf with
      | none => .ub
      | some b => .ok ({ m with buf := some (b.set m.first iv) }, .inl (.popAdvance v))
    | .popAdvance v => .ok ({ m with first := advance n m.first }, .inl (.popCount v))
    | .popCount v => .ok ({ m with count := m.count - 1 }, .inr (.value v))

end Flame.Conc.Queue
