import Verif.Crypto.Library

/-!
# Several `Pkcs11Library` objects for one module — src/Crypto/Pkcs11/Pkcs11.cpp, src/Os/Library.cpp

`Pkcs11Library::create` with the same name opens the same shared library again: the operating system hands out another handle of the one copy that is
loaded (`dlopen`, `LoadLibrary`), so that all the objects talk to one module with one "initialised" flag, while each has its own `status`.  The module
is unloaded when the last handle is closed, which is the base class's destructor (Library.cpp 25-32); a module loaded afresh is not initialised.

The objects are those of `Library.lean` and every member function is the one modelled there.  Simplifications: the module can be opened; `dlclose` of
the last handle always unloads; one call at a time.
-/

namespace Flame.Pkcs11
open Flame.Own (upd)

variable {I F : Type}

/-- The objects of the program and the module. -/
structure World (I F : Type) where
  /-- `none`: there is no such object -/
  libs : Nat → Option (Lib I F)
  /-- the objects whose handle is open -/
  live : List Nat
  /-- the module is initialised -/
  modInit : Bool
  /-- what the module saw -/
  log : List Ev
  /-- the module was unloaded: was it initialised then? -/
  unloads : List Bool

/-- A program that has not opened the module yet. -/
def World.start : World I F := ⟨fun _ => none, [], false, [], []⟩

/-- The object and the module, as one member function of object `i` sees them. -/
def World.view (w : World I F) (i : Nat) : St I F := ⟨w.libs i, w.modInit, w.log⟩

/-- Library.cpp 25-32 with `dlclose`: the handle of object `i` is closed. -/
def World.close (w : World I F) (i : Nat) : World I F :=
  if w.live.filter (fun j => decide (j ≠ i)) = [] then
    { w with
      live := []
      modInit := false
      unloads := w.modInit :: w.unloads }
  else { w with live := w.live.filter (fun j => decide (j ≠ i)) }

/-- The world after a member function of object `i`; the destructor of the base class follows that of `Pkcs11Library`. -/
def World.put (w : World I F) (i : Nat) (s : St I F) : World I F :=
  match s.lib with
  | some l => { w with
      libs := upd w.libs i (some l)
      modInit := s.modInit
      log := s.log }
  | none => World.close { w with
      libs := upd w.libs i none
      modInit := s.modInit
      log := s.log } i

inductive WOp (I F : Type) where
  /-- `Pkcs11Library::create` (Pkcs11.cpp 14-27) -/
  | create (i : Nat)
  /-- a member function or the destructor of object `i` -/
  | call (i : Nat) (o : Op I F)

/-- One call of the program. -/
def wstep (can : Nat → Bool) (w : World I F) : WOp I F → Res (World I F)
  | .create i => match w.libs i with
    | none => .ok { w with
        libs := upd w.libs i (init : St I F).lib
        live := i :: w.live }
    | some _ => .ub
  | .call i o => match step can (w.view i) o with
    | .ok s => .ok (w.put i s)
    | .ub => .ub
    | .loop => .loop

end Flame.Pkcs11
