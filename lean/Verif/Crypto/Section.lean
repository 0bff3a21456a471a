import Verif.Crypto.MutexCb

/-!
# Modules that guard a section with the library's callbacks — src/Crypto/Pkcs11/{MutexReal,MutexStub}/InitializeArgsCallbacks.cpp

The library `Crypto.Pkcs11` is linked with the callbacks of `MutexReal` (model `Crypto/MutexCb`), `Crypto.Pkcs11.NoThread` with those of `MutexStub`
(src/Crypto/Pkcs11/CMakeLists.txt 12-21, 59-68); `InitializeArgs()` (InitializeArgs.cpp 10-17) hands either to the module, with `OS_LOCKING_OK`.

The module: it creates one mutex with `CreateMutex` when it starts, and any number of its threads enter a section after `LockMutex` returned `OK` and call
`UnlockMutex` when they leave it.  One call of a callback is one step; a thread waiting in the native `lock` has made no step yet.
-/

namespace Flame.Pkcs11.Section
open Flame.Own (upd)

/-- Which callbacks the program is linked with. -/
inductive Impl where
  | real
  | stub
  deriving DecidableEq, Repr

/-- The callbacks.  The stubs (MutexStub/InitializeArgsCallbacks.cpp 11-29) return `OK` and do nothing. -/
def cb (k : Impl) (s : MutexCb.St) (o : MutexCb.Op) : Res (MutexCb.Out × MutexCb.St) :=
  match k with
  | .real => MutexCb.call s o
  | .stub => .ok (⟨MutexCb.OK, none⟩, s)

/-- `handle`: the module's variable, null before the mutex is created; `inside t`: thread `t` is in the section. -/
structure St where
  lib : MutexCb.St
  handle : Option Nat
  inside : Nat → Bool

/-- The module starts: `CreateMutex(&handle)`. -/
def start (k : Impl) : St :=
  match cb k MutexCb.init (.create true true) with
  | .ok (out, lib) => ⟨lib, out.written.getD none, fun _ => false⟩
  | _ => ⟨MutexCb.init, none, fun _ => false⟩

/-- `ok`: the native call succeeds. -/
inductive Op where
  | enter (t : Nat) (ok : Bool)
  | leave (t : Nat) (ok : Bool)
  deriving DecidableEq, Repr

def step (k : Impl) (s : St) : Op → Res St
  | .enter t ok => match cb k s.lib (.lock s.handle ok) with
    | .ok (out, lib) => .ok ⟨lib, s.handle, if out.rv = 0 then upd s.inside t true else s.inside⟩
    | .ub => .ub
    | .loop => .loop
  | .leave t ok => match cb k s.lib (.unlock s.handle ok) with
    | .ok (_, lib) => .ok ⟨lib, s.handle, upd s.inside t false⟩
    | .ub => .ub
    | .loop => .loop

/-- When a step can be made: a thread enters if it is outside, leaves if it is inside; the native `lock` does not succeed while the mutex is locked (the thread waits).
`bad`: native calls may fail. -/
def can (k : Impl) (bad : Bool) (s : St) : Op → Prop
  | .enter t ok => s.inside t = false ∧ (ok = false → bad = true) ∧ (k = .real → ok = true → ∀ x, s.handle = some x → s.lib.held x = false)
  | .leave t ok => s.inside t = true ∧ (ok = false → bad = true)

end Flame.Pkcs11.Section
