import Verif.Own.Spec

/-!
# Initialisation arguments — src/Crypto/Pkcs11/InitializeArgs.cpp, include/FlameIDE/Crypto/Pkcs11/InitializeArgs.hpp

Objects live in variables; the history is a list of operations.  A callback is `none` (null) or a function, represented by a number.
`PKCS11_OS_LOCKING_OK` is 2 (Types/Enums.hpp).
-/

namespace Flame.Pkcs11.Args

def OS_LOCKING_OK : Nat := 2

/-- The library's own callbacks (InitializeArgsCallbacks.hpp). -/
def ownCreate : Nat := 1
def ownDestroy : Nat := 2
def ownLock : Nat := 3
def ownUnlock : Nat := 4

/-- InitializeArgs.hpp 26-33: `Callbacks`. -/
structure Callbacks where
  create : Option Nat
  destroy : Option Nat
  lock : Option Nat
  unlock : Option Nat
  deriving DecidableEq, Repr

/-- `Callbacks{}`. -/
def Callbacks.none : Callbacks := ⟨.none, .none, .none, .none⟩

/-- Members, inherited from `CK_C_INITIALIZE_ARGS`. -/
structure Args where
  createMutex : Option Nat
  destroyMutex : Option Nat
  lockMutex : Option Nat
  unlockMutex : Option Nat
  flags : Nat
  reserved : Option Nat
  deriving DecidableEq, Repr

/-- InitializeArgs.cpp 10-17: default constructor. -/
def default : Args := ⟨some ownCreate, some ownDestroy, some ownLock, some ownUnlock, OS_LOCKING_OK, none⟩

/-- InitializeArgs.cpp 75-81: `setCallbacks`. -/
def Args.setCallbacks (a : Args) (c : Callbacks) : Args :=
  { a with createMutex := c.create, destroyMutex := c.destroy, lockMutex := c.lock, unlockMutex := c.unlock }

/-- InitializeArgs.cpp 19-25: copy constructor (member by member through Structs/InitializeArgs.cpp 24-38). -/
def copyCtor (a : Args) : Args := ⟨a.createMutex, a.destroyMutex, a.lockMutex, a.unlockMutex, a.flags, a.reserved⟩

/-- InitializeArgs.cpp 27-37: move constructor: new object and source afterwards. -/
def moveCtor (a : Args) : Args × Args :=
  (copyCtor a, { a.setCallbacks .none with flags := OS_LOCKING_OK, reserved := none })

/-- InitializeArgs.cpp 44-51: from callbacks, flags and reserved. -/
def fromCallbacks (c : Callbacks) (flags : Nat) (reserved : Option Nat) : Args :=
  ⟨c.create, c.destroy, c.lock, c.unlock, flags, reserved⟩

/-- InitializeArgs.cpp 53-63: copy assignment. -/
def Args.assign (t a : Args) : Args :=
  { t.setCallbacks ⟨a.createMutex, a.destroyMutex, a.lockMutex, a.unlockMutex⟩ with flags := a.flags, reserved := a.reserved }

/-- What move assignment leaves in its source (InitializeArgs.cpp 69-70): the flags stay. -/
def Args.cleared (a : Args) : Args := { a.setCallbacks .none with reserved := none }

/-- The variables. -/
structure St where
  vars : Nat → Option Args

def init : St := ⟨fun _ => none⟩

inductive Op where
  | default (i : Nat)
  | fromCallbacks (i : Nat) (c : Callbacks) (flags : Nat) (reserved : Option Nat)
  | copyCtor (i j : Nat)
  | moveCtor (i j : Nat)
  | assign (i j : Nat)
  | moveAssign (i j : Nat)
  | setCallbacks (i : Nat) (c : Callbacks)
  | destroy (i : Nat)

def put (f : Nat → Option Args) (i : Nat) (a : Option Args) : Nat → Option Args := fun k => if k = i then a else f k

def step (s : St) : Op → Res St
  | .default i => match s.vars i with
    | some _ => .ub
    | none => .ok ⟨put s.vars i (some Args.default)⟩
  | .fromCallbacks i c f r => match s.vars i with
    | some _ => .ub
    | none => .ok ⟨put s.vars i (some (Args.fromCallbacks c f r))⟩
  | .copyCtor i j => match s.vars i, s.vars j with
    | none, some a => .ok ⟨put s.vars i (some (Args.copyCtor a))⟩
    | _, _ => .ub
  | .moveCtor i j => match s.vars i, s.vars j with
    | none, some a => .ok ⟨put (put s.vars j (some (Args.moveCtor a).2)) i (some (Args.moveCtor a).1)⟩
    | _, _ => .ub
  | .assign i j => match s.vars i, s.vars j with
    | some t, some a => .ok ⟨put s.vars i (some (t.assign a))⟩
    | _, _ => .ub
  -- InitializeArgs.cpp 65-74: first the assignment, then the source is cleared, also if it is the same object
  | .moveAssign i j => match s.vars i, s.vars j with
    | some t, some a => .ok ⟨put (put s.vars i (some (t.assign a))) j (some (if i = j then (t.assign a).cleared else a.cleared))⟩
    | _, _ => .ub
  | .setCallbacks i c => match s.vars i with
    | some a => .ok ⟨put s.vars i (some (a.setCallbacks c))⟩
    | none => .ub
  | .destroy i => match s.vars i with
    | some _ => .ok ⟨put s.vars i none⟩
    | none => .ub

end Flame.Pkcs11.Args
