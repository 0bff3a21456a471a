/-!
# Which objects can be made, copied and moved

include/FlameIDE/Common/Traits/CreationProhibitions.hpp and the special member functions that the library's classes declare.
The rules are those of C++14: [class.ctor]/4, [class.copy]/7-11, 18-23, [dcl.init.aggr]/1, [dcl.init.list]/3.

Simplifications: access (`private`, `protected`) is not modelled, nor are constructor templates, which are never copy or move constructors
([class.copy]/2, /3); copy members take `const T &`; there are no reference or `const` members, unions or deleted destructors.
-/

namespace Flame.Special

/-- How a class declares one special member. -/
inductive Decl where
  /-- not at all -/
  | none
  /-- `= default` in the class -/
  | deflt
  /-- `= delete` -/
  | deleted
  /-- with a body (or `= default` outside the class) -/
  | user
  deriving DecidableEq, Repr

structure Decls where
  /-- `T()` -/
  ctor : Decl := .none
  /-- `T(const T &)` -/
  copy : Decl := .none
  /-- `T(T &&)` -/
  move : Decl := .none
  /-- `operator=(const T &)` -/
  copyAssign : Decl := .none
  /-- `operator=(T &&)` -/
  moveAssign : Decl := .none
  /-- a destructor is declared in whatever way -/
  dtor : Bool := false
  /-- another constructor is declared -/
  other : Bool := false
  deriving DecidableEq, Repr

/-- A class: its declarations, whether it has virtual functions or members that are not public, its bases and its members of class type (those of scalar type
can do everything). -/
inductive Cls where
  | mk (d : Decls) (closed : Bool) (bases members : List Cls)

def Cls.decls : Cls → Decls | .mk d _ _ _ => d
def Cls.bases : Cls → List Cls | .mk _ _ b _ => b
def Cls.members : Cls → List Cls | .mk _ _ _ m => m

/-- What can be done: `T t;`, construction from a `const` lvalue and from an rvalue, assignment from a `const` lvalue and from an rvalue. -/
structure Avail where
  ctor : Bool
  copy : Bool
  move : Bool
  copyAssign : Bool
  moveAssign : Bool
  deriving DecidableEq, Repr

/-- [class.ctor]/4: the default constructor; `subs`: every subobject has one. -/
def canCtor (d : Decls) (subs : Bool) : Bool := match d.ctor with
  | .user => true
  | .deleted => false
  | .deflt => subs
  | .none => decide (d.copy = .none) && decide (d.move = .none) && !d.other && subs

/-- [class.copy]/7, /11 (18, 23 for assignment): copying; `subs`: every subobject can be copied.  `own`: the declaration; `moves`: a move operation is
declared. -/
def canCopy (own : Decl) (moves : Bool) (subs : Bool) : Bool := match own with
  | .user => true
  | .deleted => false
  | .deflt => subs
  | .none => !moves && subs

/-- [class.copy]/9, /11 (20, 23): the move operation that overload resolution sees: none, or one that is deleted or not.  A defaulted one that would be deleted is
ignored.  `own`: the declaration; `others`: another copy or move operation or a destructor is declared; `subs`: every subobject can be moved. -/
def seenMove (own : Decl) (others : Bool) (subs : Bool) : Option Bool := match own with
  | .user => some true
  | .deleted => some false
  | .deflt => if subs then some true else .none
  | .none => if !others && subs then some true else .none

/-- What a class can do, given what its subobjects can. -/
def combine (d : Decls) (subs : List Avail) : Avail :=
  let copy := canCopy d.copy (decide (d.move ≠ .none) || decide (d.moveAssign ≠ .none)) (subs.all (·.copy))
  let copyAssign := canCopy d.copyAssign (decide (d.move ≠ .none) || decide (d.moveAssign ≠ .none)) (subs.all (·.copyAssign))
  { ctor := canCtor d (subs.all (·.ctor))
    copy := copy
    move := (seenMove d.move
      (decide (d.copy ≠ .none) || decide (d.copyAssign ≠ .none) || decide (d.moveAssign ≠ .none) || d.dtor) (subs.all (·.move))).getD copy
    copyAssign := copyAssign
    moveAssign := (seenMove d.moveAssign
      (decide (d.copy ≠ .none) || decide (d.copyAssign ≠ .none) || decide (d.move ≠ .none) || d.dtor) (subs.all (·.moveAssign))).getD copyAssign }

mutual
def avail : Cls → Avail
  | .mk d _ bases members => combine d (avails bases ++ avails members)
def avails : List Cls → List Avail
  | [] => []
  | c :: cs => avail c :: avails cs
end

/-- [dcl.init.aggr]/1: no constructor with a body, no bases, nothing hidden. -/
def aggregate : Cls → Bool
  | .mk d closed bases _ => decide (d.ctor ≠ .user) && decide (d.copy ≠ .user) && decide (d.move ≠ .user) && !d.other && !closed && bases.isEmpty

mutual
/-- [dcl.init.list]/3: `T t{};`: an aggregate's members are made from `{}` each, whatever its constructors are. -/
def canBraces : Cls → Bool
  | .mk d closed bases members =>
    if aggregate (.mk d closed bases members) then allBraces members else (avail (.mk d closed bases members)).ctor
def allBraces : List Cls → Bool
  | [] => true
  | c :: cs => canBraces c && allBraces cs
end

/-! ## The prohibitions -/

/-- CreationProhibitions.hpp 10-18. -/
def NonDefault : Cls := .mk { ctor := .deleted, copy := .deflt, move := .deflt, copyAssign := .deflt, moveAssign := .deflt } false [] []

/-- CreationProhibitions.hpp 23-29. -/
def NonMove : Cls := .mk { ctor := .deflt, move := .deleted, moveAssign := .deleted } false [] []

/-- CreationProhibitions.hpp 34-40. -/
def NonCopy : Cls := .mk { ctor := .deflt, copy := .deleted, copyAssign := .deleted } false [] []

/-- CreationProhibitions.hpp 45-48. -/
def NonAssignable : Cls := .mk { ctor := .deflt } false [NonMove, NonCopy] []

/-- CreationProhibitions.hpp 53-54. -/
def NonCreational : Cls := .mk {} false [NonDefault, NonMove, NonCopy] []

/-! ## Classes of the library that release something when destroyed -/

/-- The usual declarations of an owner: a default constructor, no copies, moves with a body, a destructor. -/
def ownerDecls : Decls := { ctor := .user, copy := .deleted, move := .user, copyAssign := .deleted, moveAssign := .user, dtor := true }

/-- include/FlameIDE/Os/Library.hpp 11-40. -/
def Library : Cls := .mk { ctor := .user, move := .user, moveAssign := .user, dtor := true, other := true } true [NonCopy] []

/-- include/FlameIDE/Os/Network/NetworkBase.hpp 14-66. -/
def NetworkBase : Cls := .mk { move := .user, moveAssign := .user, dtor := true, other := true } true [NonCopy] []

/-- include/FlameIDE/Os/Network/UdpClient.hpp 11-46. -/
def UdpClient : Cls := .mk { move := .user, moveAssign := .user, dtor := true, other := true } true [NetworkBase] []

/-- include/FlameIDE/Os/Network/UdpServer.hpp 11-42. -/
def UdpServer : Cls := .mk { move := .user, moveAssign := .user, dtor := true, other := true } true [NetworkBase] []

/-- include/FlameIDE/Os/Network/TcpClient.hpp 11-54; TcpServer.hpp 13-49. -/
def TcpSocket : Cls := .mk { ownerDecls with ctor := .deleted, other := true } true [NetworkBase] []

/-- include/FlameIDE/Os/Network/TcpServer.hpp 60-84. -/
def WithClient : Cls := .mk { ownerDecls with ctor := .deleted, other := true } true [] []

/-- include/FlameIDE/Os/Threads/Mutex.hpp 11-38, Spin.hpp 12-39. -/
def Mutex : Cls := .mk ownerDecls true [] []

/-- include/FlameIDE/Os/Threads/Semaphore.hpp 11-43. -/
def Semaphore : Cls := .mk { ownerDecls with other := true } true [] []

/-- include/FlameIDE/Os/Threads/Thread.hpp 11-73. -/
def ThreadBase : Cls := .mk ownerDecls true [] []

/-- include/FlameIDE/Os/Threads/Thread.hpp 81-95. -/
def ThreadCrtp : Cls := .mk { dtor := true } true [ThreadBase] []

/-- include/FlameIDE/Os/Threads/Counter.hpp 12-35, of a `Spin`. -/
def Counter : Cls :=
  .mk { ctor := .deflt, copy := .deleted, move := .deflt, copyAssign := .deleted, moveAssign := .deflt, dtor := true } true [] [Mutex]

/-- include/FlameIDE/Os/Threads/Utils.hpp 22-43. -/
def Locker : Cls := .mk { ctor := .deleted, copy := .deleted, move := .deleted, copyAssign := .deleted, moveAssign := .deleted, dtor := true, other := true } true [] []

/-- include/FlameIDE/Os/Threads/Utils.hpp 52-115. -/
def UniqueLocker : Cls :=
  .mk { ctor := .deleted, copy := .deflt, move := .user, copyAssign := .deflt, moveAssign := .user, dtor := true, other := true } true [] []

/-- include/FlameIDE/Os/Threads/ConditionVariable.hpp 17-67. -/
def ConditionVariable : Cls := .mk { dtor := true, other := true } true [] [Counter, UniqueLocker]

/-- include/FlameIDE/Streams/StreamUtils.hpp 30-100, 102-168: the abstract reader and writer. -/
def AbstractStream : Cls := .mk { dtor := true } true [] []

/-- include/FlameIDE/Streams/StreamUtils.hpp 170-194. -/
def AbstractByteStream : Cls := .mk { dtor := true } true [AbstractStream, AbstractStream] []

/-- include/FlameIDE/Streams/FileStreamReader.hpp 15-58, FileStreamWriter.hpp 15-61. -/
def FileStream : Cls := .mk { ownerDecls with other := true } true [AbstractStream] []

/-- include/FlameIDE/Streams/NamedPipeReader.hpp 18-58, NamedPipeWriter.hpp 15-62. -/
def NamedPipeEnd : Cls := .mk { ownerDecls with other := true } true [FileStream] []

/-- include/FlameIDE/Streams/NamedPipeStream.hpp 15-86. -/
def NamedPipeStream : Cls := .mk { ownerDecls with other := true } true [AbstractByteStream] [NamedPipeEnd, NamedPipeEnd]

/-- include/FlameIDE/Streams/PipeStream.hpp 14-88. -/
def PipeStream : Cls := .mk { ownerDecls with other := true } true [AbstractByteStream] [FileStream, FileStream]

/-- include/FlameIDE/Templates/Pointers.hpp 134-147, 152-171: the counter and the object of a shared pointer; `object`: the class of the object. -/
def SharedCounter : Cls := .mk { ctor := .user, dtor := true } true [NonAssignable] []
@[inherit_doc SharedCounter] def SharedMembers (object : Cls) : Cls := .mk { ctor := .deflt, dtor := true, other := true } true [NonAssignable] [SharedCounter, object]

/-- include/FlameIDE/Templates/Pointers.hpp 231-283; the constructor template (244-245) without arguments is the default constructor. -/
def UniquePointer : Cls := .mk { ownerDecls with other := true } true [] []

/-- src/Crypto/SoftPkcs11/Mutex.hpp 12-50. -/
def SoftMutex : Cls := .mk { ownerDecls with other := true } true [] []

/-- src/Os/Async/Network/QueuedArray.hpp 17-37. -/
def QueuedArray : Cls := .mk {} true [] [UniquePointer, Mutex]

/-- include/FlameIDE/Templates/RaiiCaller.hpp 12-32; `call`: the class of the call. -/
def RaiiCaller (call : Cls) : Cls := .mk { dtor := true, other := true } true [] [call]

/-- include/FlameIDE/Templates/InitializerList.hpp 14-87; `element`: the class of the elements (an array of them is a member, 86).  The constructor without
arguments needs `Helper<>::init`, which does not exist. -/
def InitializerList (element : Cls) : Cls := .mk { dtor := true, other := true } true [] [element]

/-- include/FlameIDE/Templates/AlignObject.hpp 31-69: the object is in an array of bytes. -/
def AlignedObject : Cls := .mk { ctor := .user, dtor := true, other := true } false [] []

end Flame.Special
