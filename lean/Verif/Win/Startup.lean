import Verif.Own.Spec

/-!
# Starting and ending Winsock — src/Os/Windows/Network/SocketFunctions.cpp 10-32, 281-327

Two models: calls of `winsockInit` by several threads, step by step; and the order in which the objects of static storage duration are destroyed
when the process ends.
Simplifications: constructing the static object of 283 is atomic (the compiler guards it); memory is sequentially consistent; Winsock counts
WSAStartup and WSACleanup and works while more of the first have succeeded.
-/

namespace Flame.WsaLib

/-- Where one thread is in `winsockInit` (322-327). -/
inductive Phase where
  | idle
  /-- 294 has found `inited` false -/
  | starting
  /-- WSAStartup has succeeded, 304 not yet executed -/
  | setting
  /-- about to read `inited` (326, 289) -/
  | reading
  /-- returned -/
  | done (result : Bool)
  deriving DecidableEq, Repr

structure St where
  inited : Bool
  /-- WSAStartup calls that succeeded -/
  startups : Nat
  cleanups : Nat
  phase : Nat → Phase
  ended : Bool

def start : St := ⟨false, 0, 0, fun _ => .idle, false⟩

inductive Op where
  /-- thread `i` calls `winsockInit` and executes 294 -/
  | check (i : Nat)
  /-- thread `i` executes 297-302; `ok`: WSAStartup succeeds -/
  | startup (i : Nat) (ok : Bool)
  /-- thread `i` executes 304 -/
  | set (i : Nat)
  /-- thread `i` executes 289 -/
  | read (i : Nat)
  /-- the static object is destroyed: 307-318 -/
  | exit
  deriving DecidableEq, Repr

def step (s : St) : Op → Res St
  | .check i => .ok { s with phase := Own.upd s.phase i (if s.inited then .reading else .starting) }
  | .startup i ok =>
    if ok then .ok { s with startups := s.startups + 1, phase := Own.upd s.phase i .setting }
    else .ok { s with phase := Own.upd s.phase i .reading }
  | .set i => .ok { s with inited := true, phase := Own.upd s.phase i .reading }
  | .read i => .ok { s with phase := Own.upd s.phase i (.done s.inited) }
  | .exit => .ok { s with ended := true, cleanups := if s.inited then s.cleanups + 1 else s.cleanups }

/-- The order of the lines; the process ends once, when no call is under way. -/
def pre (s : St) : Op → Prop
  | .check i => s.ended = false ∧ (s.phase i = .idle ∨ ∃ b, s.phase i = .done b)
  | .startup i _ => s.ended = false ∧ s.phase i = .starting
  | .set i => s.ended = false ∧ s.phase i = .setting
  | .read i => s.ended = false ∧ s.phase i = .reading
  | .exit => s.ended = false ∧ ∀ i, s.phase i = .idle ∨ ∃ b, s.phase i = .done b

/-- One call at a time. -/
def serial (s : St) : Op → Prop
  | .check i => pre s (.check i) ∧ ∀ j, s.phase j = .idle ∨ ∃ b, s.phase j = .done b
  | o => pre s o

/-! ## The end of the process -/

/-- An object of static storage duration: the library's (283) or one of the program's. -/
inductive Obj where
  | winsock
  | holder (k : Nat)
  deriving DecidableEq, Repr

structure Prog where
  /-- constructed objects, last completed first -/
  objs : List Obj
  /-- which of the program's objects holds a socket -/
  sock : Nat → Bool

/-- 283: constructed when `winsockInit` is first called. -/
def need (objs : List Obj) : List Obj := if Obj.winsock ∈ objs then objs else .winsock :: objs

inductive POp where
  /-- an object is constructed; `socket`: its constructor makes a socket -/
  | construct (k : Nat) (socket : Bool)
  /-- a socket is made and given to an object constructed before -/
  | fill (k : Nat)
  /-- the object's socket is closed before the end -/
  | close (k : Nat)
  deriving DecidableEq, Repr

def pstep (p : Prog) : POp → Prog
  | .construct k b => ⟨.holder k :: (if b then need p.objs else p.objs), Own.upd p.sock k b⟩
  | .fill k => ⟨need p.objs, Own.upd p.sock k true⟩
  | .close k => { p with sock := Own.upd p.sock k false }

/-- Destruction in the reverse order of construction: the objects whose socket is closed, with whether Winsock is still working. -/
def ending (sock : Nat → Bool) : Bool → List Obj → List (Nat × Bool)
  | _, [] => []
  | _, .winsock :: os => ending sock false os
  | up, .holder k :: os => if sock k then (k, up) :: ending sock up os else ending sock up os

/-- All of it, after `os`. -/
def prun (os : List POp) : Prog := os.foldl pstep ⟨[], fun _ => false⟩

end Flame.WsaLib
