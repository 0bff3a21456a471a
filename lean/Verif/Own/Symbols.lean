import Verif.Own.Native

/-!
# Symbols of loaded libraries — src/Os/Library.cpp 27-71, src/Os/Posix/LibraryFunctions.cpp 10-26

The dynamic linker: opening a library that is already mapped gives the same handle and adds a reference, closing takes one away, and the library is unmapped with the
last (dlopen(3), dlclose(3)); `dlsym` with the null handle, which is `RTLD_DEFAULT` on Linux, searches the program itself and what it was linked with.
Simplifications: a library's symbols include those of its dependencies; libraries that refuse to be unmapped (`RTLD_NODELETE`) are left out; allocation of the cell
succeeds; C43 treats handles as resources, here the cell's content is the number of the library.
-/

namespace Flame.Own.Sym

/-- What the linker knows. -/
structure World where
  /-- symbols of the program and of what it was linked with -/
  program : Nat → Option Nat
  /-- symbols of each library -/
  library : Nat → Nat → Option Nat

structure St where
  vars : Nat → Option Lib.Handle
  /-- references the linker counts -/
  refs : Nat → Nat
  /-- history: the objects on whose behalf a library was opened, moves followed -/
  who : Nat → List Nat

def start : St := ⟨fun _ => none, fun _ => 0, fun _ => []⟩

inductive Op where
  /-- `Library()` -/
  | create (i : Nat)
  /-- `Library(name, directory)`: the library found, if any -/
  | load (i : Nat) (found : Option Nat)
  | moveCtor (i j : Nat)
  | moveAssign (i j : Nat)
  | drop (i : Nat)
  deriving DecidableEq, Repr

def step (s : St) : Op → Res St
  -- 27-31
  | .create i => .ok { s with vars := upd s.vars i (some (.cell none)) }
  -- 38-42
  | .load i none => .ok { s with vars := upd s.vars i (some (.cell none)) }
  | .load i (some l) => .ok ⟨upd s.vars i (some (.cell (some l))), upd s.refs l (s.refs l + 1), upd s.who l (i :: s.who l)⟩
  -- 33-36
  | .moveCtor i j => match s.vars j with
    | some (.cell (some l)) => .ok ⟨upd (upd s.vars i (some (.cell (some l)))) j (some .null), s.refs, upd s.who l (i :: (s.who l).erase j)⟩
    | some h => .ok { s with vars := upd (upd s.vars i (some h)) j (some .null) }
    | none => .ub
  -- 54-59: what the target held is forgotten
  | .moveAssign i j => match s.vars j with
    | some (.cell (some l)) => .ok ⟨upd (upd s.vars i (some (.cell (some l)))) j (some .null), s.refs, upd s.who l (i :: (s.who l).erase j)⟩
    | some h => .ok { s with vars := upd (upd s.vars i (some h)) j (some .null) }
    | none => .ub
  -- 44-52, LibraryFunctions.cpp 22-26
  | .drop i => match s.vars i with
    | some h => match Lib.handleRef h with
      | .ok (some l) => .ok ⟨upd s.vars i none, upd s.refs l (s.refs l - 1), upd s.who l ((s.who l).erase i)⟩
      | .ok none => .ok { s with vars := upd s.vars i none }
      | .ub => .ub
      | .loop => .loop
    | none => .ub

/-- Library.cpp 61-64: `operator bool`. -/
def loaded (h : Lib.Handle) : Res Bool := match Lib.handleRef h with
  | .ok c => .ok c.isSome
  | .ub => .ub
  | .loop => .loop

/-- 66-71, LibraryFunctions.cpp 17-20: `find`: `dlsym` of the handle, null if there is none. -/
def find (w : World) (h : Lib.Handle) (name : Nat) : Res (Option Nat) := match Lib.handleRef h with
  | .ok (some l) => .ok (w.library l name)
  | .ok none => .ok (w.program name)
  | .ub => .ub
  | .loop => .loop

/-- The library is in memory. -/
def mapped (s : St) (l : Nat) : Prop := 0 < s.refs l

def pre (s : St) : Op → Prop
  | .create i | .load i _ => s.vars i = none
  | .moveCtor i j => s.vars i = none ∧ s.vars j ≠ none
  -- nothing is forgotten
  | .moveAssign i j => i ≠ j ∧ s.vars j ≠ none ∧ (s.vars i = some .null ∨ s.vars i = some (.cell none))
  -- a moved-from object is not destroyed (C43)
  | .drop i => s.vars i ≠ none ∧ s.vars i ≠ some .null

instance (s : St) (o : Op) : Decidable (pre s o) := by cases o <;> unfold pre <;> infer_instance

end Flame.Own.Sym
