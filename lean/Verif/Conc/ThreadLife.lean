import Verif.Basic

/-!
# The life of a thread object and of its thread, interleaved

A class `Implementer : ThreadCrtp<Implementer>` (include/FlameIDE/Os/Threads/Thread.hpp 81-95); the thread executes
`ThreadBase::task` (src/Os/Threads/Thread.cpp 99-103): `data->vRun()`, a virtual call on the object, which calls `implementer().body()`
(Thread.hpp 104-114).  The object is destroyed in the order C++ prescribes: the `Implementer` part, the `ThreadCrtp` part, and only then
`~ThreadBase` (Thread.cpp 24-33), which joins.

Interleaving semantics: `false` in a schedule is a step of the thread that owns the object, `true` one of the started thread; a step that cannot
proceed leaves the state.  Simplifications: `pthread_create` succeeds; the body makes `n` accesses to the object and nothing else that matters;
the destruction of each part is one step; classes derived from `ThreadBase` directly behave the same with one part fewer.
-/

namespace Flame.ThreadLife

/-- What the owner does between `run()` and the destruction. -/
inductive Act where
  /-- `run()` (Thread.cpp 51-61) -/
  | run
  /-- anything that concerns neither the object nor its thread -/
  | work
  /-- the owner waits for a sign of its own making that the body has ended -/
  | await
  /-- `while (isWorking());` (Thread.cpp 86-92, ThreadFunctions.cpp 71-75: `pthread_kill(thread, 0) == 0`) -/
  | poll
  /-- `join()` (Thread.cpp 63-67) -/
  | join
  /-- destruction of the `Implementer` part, of the `ThreadCrtp` part, and `~ThreadBase` -/
  | dtorImplementer
  | dtorCrtp
  | dtorBase
  deriving DecidableEq, Repr

/-- How much of the object exists. -/
inductive Phase where
  | whole
  | noImplementer
  | baseOnly
  | gone
  deriving DecidableEq, Repr

inductive Thr where
  | idle
  /-- created, `task` not yet entered -/
  | started
  /-- inside `body()`, so many accesses to come -/
  | inBody (n : Nat)
  | done
  deriving DecidableEq, Repr

structure St where
  main : List Act
  phase : Phase
  thr : Thr
  /-- `pthread_join` has returned for the identifier in the context -/
  joined : Bool
  deriving DecidableEq, Repr

/-- `pthread_join` (ThreadFunctions.cpp 62-68): undefined for an identifier already joined or never filled in; returns when the thread has
ended. `next`: the state once it has returned. -/
def pjoin (s next : St) : Res St :=
  match s.thr with
  | .idle => .ub
  | .done => if s.joined then .ub else .ok { next with joined := true }
  | _ => .ok s

/-- A step of the owner.  `esrch`: `pthread_kill` reports a thread that has ended but was not joined as absent (glibc before 2.34 does, later ones
answer 0). -/
def mainStep (esrch : Bool) (s : St) : Res St :=
  match s.main with
  | [] => .ok s
  | a :: rest =>
    let next : St := { s with main := rest }
    match a with
    | .run => .ok { next with thr := .started }
    | .work => .ok next
    | .await => if s.thr = .done then .ok next else .ok s
    | .poll => if s.thr = .done ∧ esrch = true then .ok next else .ok s
    | .join => pjoin s next
    | .dtorImplementer => .ok { next with phase := .noImplementer }
    | .dtorCrtp => .ok { next with phase := .baseOnly }
    -- Thread.cpp 26-29: nothing is joined if the thread was never run
    | .dtorBase => if s.thr = .idle then .ok { next with phase := .gone } else pjoin s { next with phase := .gone }

/-- A step of the started thread; `n`: the accesses the body makes.  Entering `task` reads the object (the virtual call); while the object is
being destroyed the call reaches `ThreadCrtp::vRun`, which casts to the destroyed part, or the pure `ThreadBase::vRun`. -/
def thrStep (n : Nat) (s : St) : Res St :=
  match s.thr with
  | .idle => .ok s
  | .done => .ok s
  | .started => if s.phase = .whole then .ok { s with thr := .inBody n } else .ub
  | .inBody 0 => .ok { s with thr := .done }
  | .inBody (k + 1) => if s.phase = .whole then .ok { s with thr := .inBody k } else .ub

def step (esrch : Bool) (n : Nat) (s : St) (who : Bool) : Res St := if who then thrStep n s else mainStep esrch s

/-- The owner runs the thread, does `acts`, and destroys the object. -/
def start (acts : List Act) : St := ⟨.run :: (acts ++ [.dtorImplementer, .dtorCrtp, .dtorBase]), .whole, .idle, false⟩

/-- What may stand between: no second `run` and no destruction. -/
def Use (acts : List Act) : Prop := ∀ a ∈ acts, a = .work ∨ a = .await ∨ a = .poll ∨ a = .join

end Flame.ThreadLife
