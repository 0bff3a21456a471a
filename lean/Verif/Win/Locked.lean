import Verif.Conc.Locked
import Verif.Conc.Counter
import Verif.Conc.Queue
import Verif.Win.SpinProps

/-!
# Objects protected by a Windows spin lock

The classes of `Verif/Conc/Locked.lean` — every method starts with `Locker locker{ lock };` (src/Os/Threads/Utils.cpp 40-64) — where the lock is
`threads::Spin` (src/Os/Threads/Spin.cpp 53-61) on Windows, that is `WinSpin` (src/Os/Windows/Threads/SpinFunctions.cpp 25-52) instead of a primitive
that works.  The library protects in this way the counter of `ConditionVariable` (include/FlameIDE/Os/Threads/ConditionVariable.hpp 65) and the event
queues (src/Os/Async/Network/QueuedArray.hpp 36).
-/

namespace Flame.WinLocked
open Flame.Own (upd upd_self upd_ne)
open Flame.Conc (Obj TS Event)

structure St (M L Op Ret : Type) where
  mem : M
  spin : WinSpin.St
  thr : Nat → TS L Op Ret
  hist : List (Event Op Ret)

variable {M L Op Ret : Type}

def initial (m : M) : St M L Op Ret := ⟨m, WinSpin.init, fun _ => .idle, []⟩

/-- One step of thread `t`: `some o` calls method `o`, `none` goes on.  `.loop`: not possible now; `.ub`: undefined. -/
def step (obj : Obj M L Op Ret) (s : St M L Op Ret) (t : Nat) : Option Op → Res (St M L Op Ret)
  | some o => match s.thr t, WinSpin.step s.spin t .callLock with
    -- Utils.cpp 54-58: the constructor of `Locker` calls `lock`
    | .idle, some p => .ok { s with spin := p, thr := upd s.thr t (.waiting o), hist := s.hist ++ [.inv t o] }
    | _, _ => .loop
  | none => match s.thr t with
    | .idle => .loop
    -- SpinFunctions.cpp 25-29: one Interlocked call of `lock`; the body begins when `lock` has returned
    | .waiting o => match WinSpin.step s.spin t .tick with
      | none => .loop
      | some p => .ok { s with spin := p, thr := if p.pc t = .holds then upd s.thr t (.inside o (obj.enter o)) else s.thr }
    | .inside o l => match obj.body l s.mem with
      | .ok (m, .inl l') => .ok { s with mem := m, thr := upd s.thr t (.inside o l') }
      | .ok (m, .inr r) => .ok { s with mem := m, thr := upd s.thr t (.leaving o r) }
      | .ub => .ub
      | .loop => .loop
    -- Utils.cpp 60-64: the destructor of `Locker` calls `unlock`
    | .leaving o r => match WinSpin.step s.spin t .unlock with
      | none => .loop
      | some p => .ok { s with spin := p, thr := upd s.thr t (.out o r) }
    | .out _ r => .ok { s with thr := upd s.thr t .idle, hist := s.hist ++ [.ret t r] }

/-- A schedule. -/
def run (obj : Obj M L Op Ret) (s : St M L Op Ret) : List (Nat × Option Op) → Res (St M L Op Ret)
  | [] => .ok s
  | (t, c) :: l => match step obj s t c with
    | .ok s' => run obj s' l
    | .ub => .ub
    | .loop => .loop

end Flame.WinLocked
