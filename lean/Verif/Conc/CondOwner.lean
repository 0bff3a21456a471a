import Verif.Conc.CondVar

/-!
# `ConditionVariable` over a mutex: who unlocks

POSIX (`pthread_mutex_unlock`) and Windows (`ReleaseMutex`) let only the thread that locked a mutex unlock it.  The condition variable locks in its
constructor (ConditionVariable.hpp 76-79), in `wait` (src/Os/Threads/ConditionVarable.cpp 20), `notify` (52) and `tryWait` (28), and unlocks in
`wait` (21), `notify` (50) and `tryWait` (30).  The steps are those of `Conc/CondVar`; here the holder is recorded.
Simplification: an unlock by another thread is recorded (`alien`) and then does what it would do for a lock without owner.
-/

namespace Flame.Conc.CondOwner
open Flame.Own (upd upd_self upd_ne)
open Flame.Conc.CondVar (PC Call next)

structure St where
  b : CondVar.St
  holder : Option Nat
  /-- some thread unlocked the mutex without holding it -/
  alien : Bool

/-- Constructed by thread `m`. -/
def start (m : Nat) : St := ⟨CondVar.init, some m, false⟩

/-- The next step tries to lock. -/
def locks : PC → Bool
  | .w3 | .n6 _ | .y2 => true
  | _ => false

/-- The next step unlocks. -/
def unlocks : PC → Bool
  | .w5 | .n2 _ _ | .y4 => true
  | _ => false

def move (s : St) (t : Nat) (c : Option Call) : Option St :=
  match next s.b t c with
  | none => none
  | some b => some
      { b := b
        holder := if unlocks (s.b.thr t) then none else if locks (s.b.thr t) && !s.b.lk then some t else s.holder
        alien := s.alien || (unlocks (s.b.thr t) && s.holder != some t) }

inductive Reaches (allow : Nat → Call → Prop) (s₀ : St) : St → Prop
  | refl : Reaches allow s₀ s₀
  | step {s s'} (t : Nat) (c : Option Call) : Reaches allow s₀ s → (∀ k, c = some k → allow t k) →
      move s t c = some s' → Reaches allow s₀ s'

def play : St → List (Nat × Option Call) → Option St
  | s, [] => some s
  | s, (t, c) :: l => (move s t c).bind fun s' => play s' l

end Flame.Conc.CondOwner
