import Verif.Stream.Ram

/-!
# include/FlameIDE/Templates/SimpleAlgorithms.hpp

Iterators are positions in memory that move linearly (pointers and the library's iterators over contiguous storage) or round a
buffer (circular iterators), `Ram.Way`.  `copy` is modelled for pointers into one memory, so that source and destination may
overlap; assignment copies the element.
-/

namespace Flame.Algo
open Ram (Way)

variable {α σ : Type}

/-- SimpleAlgorithms.hpp 80-84: the loop of `copy`; memory and `counter`. -/
def copyLoop (e : Nat) : Nat → List α → Nat → Nat → Nat → Res (List α × Nat)
  | 0, _, _, _, _ => .loop
  | f + 1, mem, it, o, c =>
    if it = e then .ok (mem, c)
    else match mem[it]? with
      | none => .ub
      | some x => if o < mem.length then copyLoop e f (mem.set o x) (it + 1) (o + 1) (c + 1) else .ub

/-- SimpleAlgorithms.hpp 66-85; 87-91 and 93-97 call it. -/
def copy (mem : List α) (s e o : Nat) : Res (List α × Nat) := copyLoop e (mem.length + 1) mem s o 0

/-- SimpleAlgorithms.hpp 99-106: `countIterations`; `n` is the size of the memory (advancing beyond its end is undefined). -/
def countLoop (w : Way) (n e : Nat) : Nat → Nat → Nat → Res Nat
  | 0, _, _ => .loop
  | f + 1, it, c => if it = e then .ok c else if it < n then countLoop w n e f (w.next n it) (c + 1) else .ub

def count (w : Way) (n s e : Nat) : Res Nat := countLoop w n e (n + 1) s 0

/-- SimpleAlgorithms.hpp 108-115: `foreach`; `func` changes the state `σ` and may change the element. -/
def foreachLoop (w : Way) (func : σ → α → σ × α) (e : Nat) : Nat → σ → List α → Nat → Res (σ × List α)
  | 0, _, _, _ => .loop
  | f + 1, st, mem, it =>
    if it = e then .ok (st, mem)
    else match mem[it]? with
      | none => .ub
      | some x =>
        let r := func st x
        foreachLoop w func e f r.1 (mem.set it r.2) (w.next mem.length it)

/-- SimpleAlgorithms.hpp 108-139: the other overloads call it. -/
def foreach (w : Way) (func : σ → α → σ × α) (st : σ) (mem : List α) (s e : Nat) : Res (σ × List α) :=
  foreachLoop w func e (mem.length + 1) st mem s

end Flame.Algo
