import Verif.Own.Spec

/-!
# `ConditionVariable` — src/Os/Threads/ConditionVarable.cpp, include/FlameIDE/Os/Threads/ConditionVariable.hpp

Shared state: `counter` (an 8-bit `Counter`, whose operations are atomic — C39), the lock given to the constructor, and the
flag `locked` of the member `locker` (a `UniqueLocker`, Utils.cpp 186-205), which waiters and notifiers all use.  Threads
interleave between any two of these accesses.

Simplifications: `unlock` makes the lock free also when nobody holds it; accesses to `locked`, which the code does not
protect, are sequentially consistent; `wait(functor)`, `unwait`, `isWait` and the destructor are in `Conc/CondLife`.

Ghost: `woke` counts the waits that returned through the lock, `early` those that returned at line 18, `released` tells whether
some `notify` unlocked the lock, `done` counts the calls of `notify` that returned after releasing, `tried` records the results
of `tryWait`.
-/

namespace Flame.Conc.CondVar
open Flame.Own (upd upd_self upd_ne)

inductive PC where
  | idle
  /-- wait, 15: `++counter` -/
  | w1
  /-- 17: `if (!counter.current()) return` -/
  | w2
  /-- 20: `locker.lock()`: the lock -/
  | w3
  /-- 20: `locked = true` -/
  | w4
  /-- 21: `locker.unlock()`: the lock -/
  | w5
  /-- 21: `locked = false` -/
  | w6
  /-- 23: `--counter` -/
  | w7
  /-- notify, 46: read the counter -/
  | n1
  /-- 50: `locker.unlock()`: the lock; `c` is `counterValue`, `w` the ghost `woke` at that time -/
  | n2 (c w : Nat)
  /-- 50: `locked = false` -/
  | n3 (c w : Nat)
  /-- 51: `do {} while (counter.current() != counterValue - 1)` -/
  | n4 (c w : Nat)
  /-- 52: `locker.tryLock()`: `if (!locked)` -/
  | n5 (w : Nat)
  /-- 52: try to take the lock -/
  | n6 (w : Nat)
  /-- 52: `locked = true` -/
  | n7 (w : Nat)
  /-- tryWait, 28: `locker.tryLock()`: `if (!locked)` -/
  | y1
  /-- 28: try to take the lock -/
  | y2
  /-- 28: `locked = true` -/
  | y3
  /-- 30: `locker.unlock()`: the lock -/
  | y4
  /-- 30: `locked = false`, return true -/
  | y5
  deriving DecidableEq

structure St where
  cnt : Nat
  lk : Bool
  flag : Bool
  thr : Nat → PC
  woke : Nat
  early : Nat
  released : Bool
  done : Nat
  tried : List Bool

/-- ConditionVariable.hpp 76-79: the constructor locks the (free) lock through `locker`. -/
def init : St := { cnt := 0, lk := true, flag := true, thr := fun _ => .idle, woke := 0, early := 0, released := false,
                   done := 0, tried := [] }

inductive Call where
  | wait
  | notify
  | tryWait
  deriving DecidableEq

/-- The next step of thread `t` (`none`: blocked, or idle without a call). -/
def next (s : St) (t : Nat) (c : Option Call) : Option St :=
  let go (p : PC) : St := { s with thr := upd s.thr t p }
  match s.thr t with
  | .idle => match c with
    | some .wait => some (go .w1)
    | some .notify => some (go .n1)
    | some .tryWait => some (go .y1)
    | none => none
  | .w1 => some { go .w2 with cnt := (s.cnt + 1) % 256 }
  | .w2 => if s.cnt = 0 then some { go .idle with early := s.early + 1 } else some (go .w3)
  | .w3 => if s.lk then none else some { go .w4 with lk := true }
  | .w4 => some { go .w5 with flag := true }
  | .w5 => some { go .w6 with lk := false }
  | .w6 => some { go .w7 with flag := false }
  | .w7 => some { go .idle with cnt := (s.cnt + 255) % 256, woke := s.woke + 1 }
  | .n1 => if s.cnt = 0 then some (go .idle) else some (go (.n2 s.cnt s.woke))
  | .n2 c w => some { go (.n3 c w) with lk := false, released := true }
  | .n3 c w => some { go (.n4 c w) with flag := false }
  | .n4 c w => if s.cnt = c - 1 then some (go (.n5 w)) else some s
  | .n5 w => if s.flag then some { go .idle with done := s.done + 1 } else some (go (.n6 w))
  | .n6 w => if s.lk then some { go (.n5 w) with flag := false } else some { go (.n7 w) with lk := true }
  | .n7 _ => some { go .idle with flag := true, done := s.done + 1 }
  | .y1 => if s.flag then some (go .y4) else some (go .y2)
  | .y2 => if s.lk then some { go .idle with flag := false, tried := s.tried ++ [false] }
      else some { go .y3 with lk := true }
  | .y3 => some { go .y4 with flag := true }
  | .y4 => some { go .y5 with lk := false }
  | .y5 => some { go .idle with flag := false, tried := s.tried ++ [true] }

/-- States reached from `s₀` by any interleaving of threads for which `allow` permits the calls. -/
inductive Reaches (allow : Nat → Call → Prop) (s₀ : St) : St → Prop
  | refl : Reaches allow s₀ s₀
  | step {s s'} (t : Nat) (c : Option Call) : Reaches allow s₀ s → (∀ k, c = some k → allow t k) →
      next s t c = some s' → Reaches allow s₀ s'

def play : St → List (Nat × Option Call) → Option St
  | s, [] => some s
  | s, (t, c) :: l => (next s t c).bind fun s' => play s' l

end Flame.Conc.CondVar
