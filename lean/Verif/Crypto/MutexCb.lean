import Verif.Own.Spec

/-!
# The library's own mutex callbacks — src/Crypto/Pkcs11/MutexReal/InitializeArgsCallbacks.cpp

The module calls these with the handles it was given.  A handle is the number of a heap object (`os::threads::Mutex`), numbered by order
of creation; `none` is a null pointer.  Outcomes of the heap and of the native mutex functions are arguments.  Using a handle that does not
point to a live object is undefined.
-/

namespace Flame.Pkcs11.MutexCb
open Flame.Own (Ev)

def OK : Nat := 0
def HOST_MEMORY : Nat := 2
def ARGUMENTS_BAD : Nat := 7

/-- `live h`: the object exists; `held h`: its native mutex is locked. -/
structure St where
  next : Nat
  live : Nat → Bool
  held : Nat → Bool
  log : List Ev

def init : St := ⟨0, fun _ => false, fun _ => false, []⟩

inductive Op where
  /-- `out`: the pointer to the result is not null; `memory`: the heap has memory -/
  | create (out : Bool) (memory : Bool)
  | destroy (h : Option Nat)
  /-- `ok`: the native call succeeds (it does not, for instance, if the calling thread holds the mutex already) -/
  | lock (h : Option Nat) (ok : Bool)
  | unlock (h : Option Nat) (ok : Bool)

/-- What the caller sees: the return code and, for `create`, what was written through the pointer (outer `none`: nothing). -/
structure Out where
  rv : Nat
  written : Option (Option Nat)
  deriving DecidableEq, Repr

def set (f : Nat → Bool) (h : Nat) (b : Bool) : Nat → Bool := fun k => if k = h then b else f k

/-- The four callbacks. -/
def call (s : St) : Op → Res (Out × St)
  -- 62-73, with 20-33
  | .create false _ => .ok (⟨ARGUMENTS_BAD, none⟩, s)
  | .create true false => .ok (⟨HOST_MEMORY, some none⟩, s)
  | .create true true =>
    .ok (⟨OK, some (some s.next)⟩, ⟨s.next + 1, set s.live s.next true, set s.held s.next false, .made s.next :: s.log⟩)
  -- 75-84, with 35-40
  | .destroy none => .ok (⟨ARGUMENTS_BAD, none⟩, s)
  | .destroy (some h) => if s.live h then .ok (⟨OK, none⟩, ⟨s.next, set s.live h false, s.held, .closed h :: s.log⟩) else .ub
  -- 86-95, with 42-46: the result of `lock()` is not looked at
  | .lock none _ => .ok (⟨ARGUMENTS_BAD, none⟩, s)
  | .lock (some h) ok =>
    if s.live h then .ok (⟨OK, none⟩, { s with held := if ok then set s.held h true else s.held, log := .used h :: s.log }) else .ub
  -- 97-106, with 48-52: the result of `unlock()` is not looked at
  | .unlock none _ => .ok (⟨ARGUMENTS_BAD, none⟩, s)
  | .unlock (some h) ok =>
    if s.live h then .ok (⟨OK, none⟩, { s with held := if ok then set s.held h false else s.held, log := .used h :: s.log }) else .ub

def step (s : St) (o : Op) : Res St :=
  match call s o with
  | .ok (_, s) => .ok s
  | .ub => .ub
  | .loop => .loop

end Flame.Pkcs11.MutexCb
