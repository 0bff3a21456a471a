import Verif.Own.Spec

/-!
# The window of the dispatch thread — src/Os/Windows/Async/Network/MessageDispatchThread.cpp 17, 33-62, 87-100, 110-159

The thread registers a window class under a fixed name, for the module `nullptr` — the process — and makes a window of it; at its end it destroys
the window and unregisters the class by name.  A process can contain several copies of the library (the program and its DLLs, each linked with
it), numbered here, and the program may use the name for a class of its own.

The system: a name can be registered once per process; a class goes only when no window of it is open; RegisterClass returns an atom of
0xC000 … 0xFFFF; ATOM has 16 bits; a window is destroyed by the thread that made it only; handle 0 is none.
Simplifications: each of `makeWindow` and `destroyWindow` is one step; handles are not used again; the program uses windows of its own class only.
-/

namespace Flame.WinWindow

/-- Whose a class or window is. -/
inductive Who where
  | prog
  | lib (k : Nat)
  deriving DecidableEq, Repr

/-- Os/Windows/Types.hpp 278-282 -/
structure Win where
  handle : Nat
  atom : Nat
  deriving DecidableEq, Repr

/-- Where a copy's dispatch thread is: before `init`, between `init` and `destroy`, after `destroy`. -/
inductive Ph where
  | idle | running | ended
  deriving DecidableEq, Repr

structure St where
  /-- who registered the class of the name -/
  cls : Option Who
  /-- the open windows of the class -/
  wins : List (Nat × Who)
  next : Nat
  /-- the member `window` of each copy -/
  win : Nat → Win
  ph : Nat → Ph

def start : St := ⟨none, [], 1, fun _ => ⟨0, 0⟩, fun _ => .idle⟩

/-- RegisterClass: the error, if any; `lack` is what the system says for reasons of its own, 1410 is ERROR_CLASS_ALREADY_EXISTS. -/
def regError (s : St) (lack : Option Nat) : Option Nat := if s.cls.isSome then some 1410 else lack

/-- UnregisterClass -/
def unregister (s : St) : St := if s.wins = [] then { s with cls := none } else s

/-- 110-151: `makeWindow`; the class name is never null.  `reg`, `cre`: the errors of the system for registering and creating.  The error
number is stored as an ATOM (133, 144). -/
def makeWindow (s : St) (k : Nat) (reg cre : Option Nat) : St × Win :=
  match regError s reg with
  | some e => (s, ⟨0, e % 65536⟩)
  | none =>
    let s := { s with cls := some (.lib k) }
    match cre with
    | some e => (unregister s, ⟨0, e % 65536⟩)
    | none =>
      ({ s with wins := (s.next, .lib k) :: s.wins, next := s.next + 1 }, ⟨s.next, 49152 + s.next % 16384⟩)

/-- 153-159: `destroyWindow`, by the thread of copy `k`. -/
def destroyWindow (s : St) (k : Nat) (w : Win) : St :=
  unregister { s with wins := s.wins.filter (fun p => decide (p ≠ (w.handle, .lib k))) }

inductive Op where
  /-- 87-94: `init` of copy `k` -/
  | make (k : Nat) (reg cre : Option Nat)
  /-- the loop ends because of FINISH or an error of GetMessage, both possible with a window only; 96-100 -/
  | finish (k : Nat)
  /-- the loop ends because somebody posts WM_QUIT to the thread; 96-100 -/
  | quit (k : Nat)
  /-- the program registers a class of the name, unregisters it, opens a window of it, closes it -/
  | progRegister | progUnregister | progOpen | progClose (h : Nat)
  deriving DecidableEq, Repr

def step (s : St) : Op → Res St
  | .make k reg cre =>
    .ok { (makeWindow s k reg cre).1 with
          win := Own.upd s.win k (makeWindow s k reg cre).2
          ph := Own.upd s.ph k .running }
  | .finish k => .ok { destroyWindow s k (s.win k) with ph := Own.upd s.ph k .ended }
  | .quit k => .ok { destroyWindow s k (s.win k) with ph := Own.upd s.ph k .ended }
  | .progRegister => .ok { s with cls := some .prog }
  | .progUnregister => .ok (unregister s)
  | .progOpen => .ok { s with wins := (s.next, .prog) :: s.wins, next := s.next + 1 }
  | .progClose h => .ok { s with wins := s.wins.filter (fun p => decide (p ≠ (h, .prog))) }

def pre (s : St) : Op → Prop
  | .make k _ _ => s.ph k = .idle
  | .finish k => s.ph k = .running ∧ (s.win k).handle ≠ 0
  | .quit k => s.ph k = .running
  | .progRegister => s.cls = none
  | .progUnregister => s.cls = some .prog
  | .progOpen => s.cls = some .prog
  | .progClose h => (h, Who.prog) ∈ s.wins

/-- EventCatcher.cpp 64-66, 78-80: what `enable` and `disable` return when there is no window; otherwise what WSAAsyncSelect says (C115). -/
def enableStatus (w : Win) (select : Int) : Int := if w.handle = 0 then -1 else select

end Flame.WinWindow
