import Verif.Conc.Locked

/-!
# `Counter<Lock, Value>` — include/FlameIDE/Os/Threads/Counter.hpp

`Value` is an unsigned integer of `w` bits (the library instantiates `uichar_t`).  `++value` is a load followed by a
store, as on the machine; the lock is a spin lock or a mutex.  Construction, destruction and the defaulted move
operations are not shared between threads and are not modelled.
-/

namespace Flame.Conc.Counter

inductive Op where
  | inc
  | dec
  | current
  deriving DecidableEq

/-- Program points. -/
inductive L where
  | incLoad
  | incStore (v : Nat)
  | decLoad
  | decStore (v : Nat)
  | read
  deriving DecidableEq

/-- Counter.hpp 43-64: `operator++` (43-49), `operator--` (51-57), `current` (59-64).  `none` is the reference
`*this` the first two return. -/
def obj (w : Nat) : Obj Nat L Op (Option Nat) where
  enter
    | .inc => .incLoad
    | .dec => .decLoad
    | .current => .read
  body l m := match l with
    | .incLoad => .ok (m, .inl (.incStore m))
    | .incStore v => .ok ((v + 1) % 2 ^ w, .inr none)
    | .decLoad => .ok (m, .inl (.decStore m))
    | .decStore v => .ok ((v + 2 ^ w - 1) % 2 ^ w, .inr none)
    | .read => .ok (m, .inr (some m))

end Flame.Conc.Counter
