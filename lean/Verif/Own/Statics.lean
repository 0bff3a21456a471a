import Verif.Own.Spec

/-!
# The library's static objects and those of the program

`EventCatcherBase::get()` (src/Os/Posix/Async/Network/EventCatcher.cpp 194-198, src/Os/Windows/Async/Network/EventCatcher.cpp 95-99),
`GlobalContext::get()` (src/Crypto/SoftPkcs11/GlobalContext.cpp 96-100), `WinSockLibrary::signeton()` (src/Os/Windows/Network/SocketFunctions.cpp 281-285) and
the `callbacks()` of the network classes (src/Os/Network/NetworkBase.cpp 52-67, UdpClient.cpp 50-, TcpClient.cpp 78-, UdpServer.cpp 35-, TcpServer.cpp 45-)
each give out an object that is a `static` variable of a function: constructed when the function is called for the first time.

The language: static objects are destroyed at the end of the program in the reverse order of the completion of their construction; what is constructed
meanwhile is destroyed as soon as the destructor that constructed it is through.  Simplifications: one thread; the library's constructors use none of the other
objects; an object's uses are given by its constructor and destructor (whatever it calls there, on its own or for its members).
-/

namespace Flame.Own.Statics

/-- The library's static objects. -/
inductive Single where
  /-- `os::async::network::EventCatcherBase::get()`: used by every function of `Registrar` (Registrar.cpp 22-160) -/
  | catcher
  /-- `GlobalContext::get()`: used by every function of the soft token, hence by `Pkcs11Library` objects for it -/
  | token
  /-- `WinSockLibrary::signeton()` -/
  | winsock
  /-- the tables of functions: `NetworkBase::callbacks()` and those of the four socket classes -/
  | callbacks (n : Nat)
  deriving DecidableEq, Repr

/-- The destructor is trivial: the object can be used until the process is gone. -/
def Single.lasting : Single → Bool
  | .catcher => false
  | .token => false
  | .winsock => false
  | .callbacks _ => true

inductive Life where
  | before | alive | over
  deriving DecidableEq, Repr

/-- A static object of the program: which of the library's objects its constructor and its destructor use. -/
structure Obj where
  ctor : List Single
  dtor : List Single
  deriving DecidableEq, Repr

/-- What is to be destroyed at the end. -/
inductive Item where
  | lib (k : Single)
  | obj (o : Obj)
  deriving DecidableEq, Repr

structure St where
  life : Single → Life
  /-- last finished first -/
  stack : List Item

def start : St := ⟨fun _ => .before, []⟩

/-- `get()`, and use of what it gives out. -/
def use (s : St) (k : Single) : Res St :=
  match s.life k with
  | .before => .ok ⟨upd s.life k .alive, .lib k :: s.stack⟩
  | .alive => .ok s
  | .over => .ub

def uses (s : St) : List Single → Res St
  | [] => .ok s
  | k :: ks => do
    let s ← use s k
    uses s ks

/-- A static object of the program is constructed. -/
def construct (s : St) (o : Obj) : Res St := do
  let s ← uses s o.ctor
  .ok { s with stack := .obj o :: s.stack }

def constructs (s : St) : List Obj → Res St
  | [] => .ok s
  | o :: os => do
    let s ← construct s o
    constructs s os

/-- One of the library's objects is destroyed. -/
def finish (life : Single → Life) (k : Single) : Single → Life := if k.lasting then life else upd life k .over

/-- The library's objects constructed in a destructor are destroyed. -/
def finishAll (life : Single → Life) : List Item → Single → Life
  | [] => life
  | .lib k :: r => finishAll (finish life k) r
  | .obj _ :: r => finishAll life r

/-- The end of the program. -/
def unwind (life : Single → Life) : List Item → Res (Single → Life)
  | [] => .ok life
  | .lib k :: r => unwind (finish life k) r
  | .obj o :: r => do
    let s ← uses ⟨life, []⟩ o.dtor
    unwind (finishAll s.life s.stack) r

/-- A program: its static objects in the order of their construction, and what is used afterwards, in `main`. -/
structure Prog where
  objs : List Obj
  main : List Single

def run (p : Prog) : Res (Single → Life) := do
  let s ← constructs start p.objs
  let s ← uses s p.main
  unwind s.life s.stack

end Flame.Own.Statics
