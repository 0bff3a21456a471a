import Verif.Own.Spec

/-!
# The Windows event catcher and its thread

src/Os/Windows/Async/Network/EventCatcher.cpp 17-30 (constructor, destructor), MessageDispatchThread.cpp 33-62 (`body`), 73-83 (`wait`, `stop`), 87-106
(same directory); src/Os/Threads/Thread.cpp 24-33 (`~ThreadBase`), 51-67 (`run`, `join`) on src/Os/Windows/Threads/ThreadFunctions.cpp 42-54, 66-96.

The catcher is a static object (EventCatcher.cpp 95-99): the constructor runs at its first use, the destructor at the end of the process.  Two
threads: the one that constructs and destroys it, and the dispatch thread.

The system: GetMessage waits until a message is there, returns −1 for a window handle that is not valid; without a window (handle 0) it
waits for messages of the thread, and nobody posts any.  PostMessage fails when the thread's queue is full.  `stop` ignores that.
Simplifications: the spin lock works (C111), its critical sections are one step; messages other than FINISH are C116; a wait on the handle of an
ended thread returns at once, any number of times.
-/

namespace Flame.WinCatcher
open Flame.Own (Reach)

/-- Where the constructing and destroying thread is. -/
inductive Main where
  /-- EventCatcher.cpp 19: `thread.run()` -/
  | creating
  /-- 20: `thread.wait()` -/
  | polling
  /-- the catcher can be used -/
  | ready
  /-- 28: `thread.stop()` -/
  | stopping
  /-- 29: `thread.join()` -/
  | joining
  /-- `~ThreadBase` of the member `thread`: Thread.cpp 31, after the rest of `thread` has been destroyed -/
  | baseJoin
  | done
  deriving DecidableEq, Repr

/-- Where the dispatch thread is. -/
inductive Thr where
  /-- it does not exist -/
  | absent
  | fresh
  /-- in the loop, MessageDispatchThread.cpp 44-59 -/
  | pumping
  /-- `body` has returned -/
  | ended
  deriving DecidableEq, Repr

structure St where
  main : Main
  thr : Thr
  /-- the members of MessageDispatchThread.hpp: `started`, and whether `window.handle` is set -/
  started : Bool
  handle : Bool
  /-- FINISH is in the queue of the thread -/
  finish : Bool
  deriving DecidableEq, Repr

def start : St := ⟨.creating, .absent, false, false, false⟩

inductive Op where
  /-- `run()`; whether CreateThread succeeds -/
  | create (ok : Bool)
  /-- one round of `while (!isWindowInited());` -/
  | poll
  /-- the destructor begins: EventCatcher.cpp 25-26 -/
  | leave
  /-- `stop()`; whether PostMessage succeeds -/
  | stop (ok : Bool)
  /-- the wait of `join()` -/
  | join
  /-- the wait of `~ThreadBase` -/
  | joinBase
  /-- MessageDispatchThread.cpp 87-94 `init`; whether the window could be made -/
  | init (window : Bool)
  /-- GetMessage gives a message of a socket, which is dispatched -/
  | message
  /-- GetMessage gives FINISH; 55-56, 96-100 -/
  | finish
  /-- GetMessage returns −1; 49-50, 96-100 -/
  | fail
  deriving DecidableEq, Repr

/-- One step. -/
def step (s : St) : Op → Res St
  | .create ok => .ok { s with main := .polling, thr := if ok then .fresh else .absent }
  | .poll => .ok { s with main := if s.started then .ready else .polling }
  | .leave => .ok { s with main := if s.handle then .stopping else .baseJoin }
  | .stop ok => .ok { s with main := .joining, finish := s.finish || ok }
  | .join => .ok { s with main := .baseJoin }
  | .joinBase => .ok { s with main := .done }
  | .init w => .ok { s with thr := .pumping, started := true, handle := w }
  | .message => .ok s
  -- `destroyWindow` leaves the member `window` as it is
  | .finish => .ok { s with thr := .ended, finish := false }
  | .fail => .ok { s with thr := .ended }

/-- When a step is possible: the order of the program, and what the system waits for. -/
def pre (s : St) : Op → Prop
  | .create _ => s.main = .creating
  | .poll => s.main = .polling
  | .leave => s.main = .ready
  | .stop _ => s.main = .stopping
  | .join => s.main = .joining ∧ s.thr = .ended
  | .joinBase => s.main = .baseJoin ∧ s.thr = .ended
  | .init _ => s.thr = .fresh
  | .message => s.thr = .pumping ∧ s.handle = true
  | .finish => s.thr = .pumping ∧ s.finish = true
  | .fail => s.thr = .pumping ∧ s.handle = true

instance (s : St) (o : Op) : Decidable (pre s o) := by
  cases o <;> unfold pre <;> infer_instance

end Flame.WinCatcher
