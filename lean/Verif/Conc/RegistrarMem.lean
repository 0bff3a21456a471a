import Verif.Conc.RegistrarProps

/-!
# `Registrar::add` when memory runs out — src/Os/Async/Network/Registrar.cpp 22-60, QueuedArray.hpp 57-73

The queues of the registrar allocate their arrays in `init`, which `add` calls for the first socket of a kind and whose result it ignores.  `mem` says
whether that allocation succeeds; what `EventCatcherBase::enable` answers is a parameter (C79, C115).
-/

namespace Flame.Conc.RegMem
open Queue Registrar

/-- QueuedArray.hpp 57-73: `init` with and without memory.  60: the pointer is assigned in any case, so without memory what was there is given up. -/
def initMem {V : Type} (n : Nat) (mem : Bool) (iv : V) (m : Q V) : Q V × Bool :=
  if mem then ({ m with buf := some (List.replicate n iv), first := 0, last := 0 }, true)
  else ({ m with buf := none }, false)

/-- Registrar.cpp 22-60: `add(socket)`: test, initialise, answer what `enable` answers. -/
def addMem (cap : Kind → Nat) (r : Queues) (k : Kind) (mem : Bool) (enabled : Int) : Queues × Int :=
  if (r k).buf.isSome then (r, enabled) else (setQ r k (initMem (cap k) mem (invalid k) (r k)).1, enabled)

inductive Op where
  | add (k : Kind) (mem : Bool) (enabled : Int)
  /-- anything else the registrar offers, and events -/
  | does (o : Registrar.Op)

inductive Out where
  | status (s : Int)
  | out (o : Registrar.Out)
  deriving DecidableEq

def step (cap : Kind → Nat) (r : Queues) : Op → Res (Queues × Out)
  | .add k mem en => .ok ((addMem cap r k mem en).1, .status (addMem cap r k mem en).2)
  | .does o => match Registrar.step cap r o with
    | .ok (r', x) => .ok (r', .out x)
    | .ub => .ub
    | .loop => .loop

def run (cap : Kind → Nat) : Queues → List Op → Res (Queues × List Out)
  | r, [] => .ok (r, [])
  | r, o :: os => match step cap r o with
    | .ok (r', x) => match run cap r' os with
      | .ok (r'', xs) => .ok (r'', x :: xs)
      | .ub => .ub
      | .loop => .loop
    | .ub => .ub
    | .loop => .loop

end Flame.Conc.RegMem
