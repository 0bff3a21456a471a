import Verif.Vector.Model
import Verif.Own.Spec

/-!
# `Pkcs11Library` — src/Crypto/Pkcs11/Pkcs11.cpp, include/FlameIDE/Crypto/Pkcs11/Pkcs11.hpp

The module (the shared library with the `C_*` functions) is a parameter: each call's answer is an argument of the operation, constrained
only by the module being initialised or not.  Return values are numbers, 0 is `OK`.

The `Vector`s filled by the module are those of `Vector/Model.lean`; elements are plain numbers (slot ids) or plain structures.
-/

namespace Flame.Pkcs11

abbrev Rv := Nat
def OK : Rv := 0
def NOT_SUPPORTED : Rv := 0x54
def NOT_INITIALIZED : Rv := 0x190
def ALREADY_INITIALIZED : Rv := 0x191

/-- `Pkcs11Expected<T>` (`templates::Expected<T, ReturnType>`): what it holds. -/
inductive Exp (α : Type) where
  | nothing
  | result (a : α)
  | error (e : Rv)
  deriving DecidableEq, Repr

/-- `expected = e` for a named `ReturnType e` (Expected.hpp 115-121): `operator=(const Error &)` sets a `const ReturnType`, a type the variant
does not have, so that the object holds nothing.  Proved for the model of `Expected` as `C34_assign_error_lost`. -/
def Exp.assignError {α : Type} (_ : Rv) : Exp α := .nothing

/-- `createPkcs11Expected` (Pkcs11.hpp 68-82). -/
def createExpected {α : Type} (value : α) (e : Rv) : Exp α := if e = OK then .result value else .assignError e

/-- `expected.ifResult(f).ifError(g)` where `f` and `g` change a variable: its new value. -/
def Exp.visit {α β : Type} (x : Exp α) (f : α → β) (g : Rv → β) (b : β) : β :=
  match x with
  | .nothing => b
  | .result a => f a
  | .error e => g e

/-- The module's side of an initialization (all answers). -/
structure Answers (I F : Type) where
  /-- is `C_GetFunctionList` found, and what does it return -/
  functionList : Option Rv
  /-- is `C_GetInterfaceList` found: result and count of the first call, result and list of the second one -/
  interfaceList : Option (Rv × Nat × Rv × List I)
  /-- `C_Initialize`, if the module is not initialised -/
  initRv : Rv
  /-- `C_GetInfo` -/
  info : Rv
  infoValue : F

inductive Ev where
  /-- `C_Initialize` succeeded -/
  | initialized
  /-- `C_Finalize` was called while the module was initialised, and succeeded or not -/
  | finalized (ok : Bool)
  /-- `C_Finalize` was called while the module was not initialised -/
  | finalizedUninitialized
  /-- another function was called while the module was not initialised -/
  | calledUninitialized
  deriving DecidableEq, Repr

/-- The object (`none` after destruction) and the module. -/
structure Lib (I F : Type) where
  /-- `status` -/
  status : Rv
  /-- `functionList` was filled -/
  functions : Bool
  /-- `ifaceList` -/
  ifaces : Exp (Vec I)
  /-- `info`; `none`: indeterminate -/
  info : Option F

structure St (I F : Type) where
  lib : Option (Lib I F)
  /-- the module is initialised -/
  modInit : Bool
  log : List Ev

variable {I F : Type}

/-- Pkcs11.cpp 14-16: constructor. -/
def init : St I F := ⟨some ⟨NOT_INITIALIZED, false, .nothing, none⟩, false, []⟩

/-- Pkcs11.cpp 228-251: `initializeFunctionList`; if the function is not found the old status is returned. -/
def initializeFunctionList (a : Answers I F) (l : Lib I F) : Rv × Lib I F :=
  match a.functionList with
  | none => (l.status, l)
  | some rv => if rv ≠ OK then (rv, l) else (rv, { l with functions := true })

/-- The module writes a list into an array it was given (a precondition of the C function: the array is large enough). -/
def fill {α : Type} (v : Vec α) (xs : List α) : Res (Vec α) := do
  let b ← v.buf.assignList true 0 xs
  .ok { v with buf := b }

/-- Pkcs11.cpp 253-288: `initializeInterfaceList`. -/
def initializeInterfaceList (can : Nat → Bool) (a : Answers I F) (l : Lib I F) : Res (Rv × Lib I F) :=
  match a.interfaceList with
  | none => .ok (NOT_SUPPORTED, l)
  | some (rv1, count, rv2, list) =>
    if rv1 ≠ OK then .ok (rv1, l)
    else if count = 0 then .ok (rv1, l)
    else if rv2 ≠ OK then .ok (rv2, { l with ifaces := .assignError rv2 })
    else match fill ((Vec.empty : Vec I).reserve can count) list with
      | .ok v => .ok (rv2, { l with ifaces := .result v.moveCtor.1 })
      | .ub => .ub
      | .loop => .loop

/-- `C_Initialize`: an initialised module refuses. -/
def cInitialize (s : St I F) (rv : Rv) : Rv × St I F :=
  if s.modInit then (ALREADY_INITIALIZED, s)
  else if rv = OK then (OK, { s with modInit := true, log := .initialized :: s.log }) else (rv, s)

/-- `C_Finalize`. -/
def cFinalize (s : St I F) (rv : Rv) : Rv × St I F :=
  if s.modInit then
    if rv = OK then (OK, { s with modInit := false, log := .finalized true :: s.log })
    else (rv, { s with log := .finalized false :: s.log })
  else (NOT_INITIALIZED, { s with log := .finalizedUninitialized :: s.log })

/-- Pkcs11.cpp 38-70, last two steps: `C_Initialize` and `C_GetInfo`. -/
def initializeRest (a : Answers I F) (s : St I F) (l : Lib I F) : Rv × St I F :=
  if (cInitialize { s with lib := some l } a.initRv).1 ≠ OK then cInitialize { s with lib := some l } a.initRv
  else if a.info ≠ OK then (a.info, (cInitialize { s with lib := some l } a.initRv).2)
  else (OK, { (cInitialize { s with lib := some l } a.initRv).2 with
    lib := some { l with status := OK, info := some a.infoValue } })

/-- Pkcs11.cpp 38-70: `initialize`. -/
def initAll (can : Nat → Bool) (a : Answers I F) (s : St I F) (l : Lib I F) : Res (Rv × St I F) :=
  if (initializeFunctionList a l).1 ≠ OK then
    .ok ((initializeFunctionList a l).1, { s with lib := some (initializeFunctionList a l).2 })
  else match initializeInterfaceList can a (initializeFunctionList a l).2 with
    | .ok (rv, l) =>
      if rv ≠ OK ∧ rv ≠ NOT_SUPPORTED then .ok (rv, { s with lib := some l })
      -- a function list that was never filled holds indeterminate pointers
      else if l.functions then .ok (initializeRest a s l) else .ub
    | .ub => .ub
    | .loop => .loop

/-- Pkcs11.cpp 96-100: `getFunctionList`. -/
def getFunctionList (l : Lib I F) : Exp Unit := createExpected () l.status

/-- Pkcs11.cpp 90-94: `getInfo`. -/
def getInfo (l : Lib I F) : Exp (Option F) := createExpected l.info l.status

/-- Pkcs11.cpp 72-88: `finalize`: `rv` is what `C_Finalize` of an initialised module returns. -/
def finalize (rv : Rv) (s : St I F) (l : Lib I F) : Rv × St I F :=
  (getFunctionList l).visit (fun _ => cFinalize s rv) (fun e => (e, s)) (OK, s)

/-- The module's answers to the two calls of `C_GetSlotList`. -/
structure Slots where
  rv1 : Rv
  count : Nat
  rv2 : Rv
  ids : List Nat

/-- Pkcs11.cpp 160-181: `getSlotIdCount`. -/
def getSlotIdCount (m : Slots) (l : Lib I F) : Exp Nat :=
  let r := (getFunctionList l).visit (fun _ => (m.rv1, m.count)) (fun e => (e, 0)) (OK, 0)
  createExpected r.2 r.1

/-- Pkcs11.cpp 183-224, inside the first handler: reserve, resize, second call. -/
def readSlots (can : Nat → Bool) (fuel : Nat) (m : Slots) (l : Lib I F) (n : Nat) : Res (Rv × Vec Nat) :=
  match ((Vec.empty : Vec Nat).reserve can n).resize can fuel n with
  | .ok v => match getFunctionList l with
    | .result _ => if m.rv2 ≠ OK then .ok (m.rv2, v) else match fill v m.ids with
      | .ok v => .ok (OK, v)
      | .ub => .ub
      | .loop => .loop
    | _ => .ok (OK, v)
  | .ub => .ub
  | .loop => .loop

/-- Pkcs11.cpp 183-224: `getSlotIdList`. -/
def getSlotIdList (can : Nat → Bool) (fuel : Nat) (m : Slots) (l : Lib I F) : Res (Exp (Vec Nat)) :=
  match getSlotIdCount m l with
  | .result n => match readSlots can fuel m l n with
    | .ok (rv, v) => .ok (if rv = OK then .result v.moveCtor.1 else .assignError rv)
    | .ub => .ub
    | .loop => .loop
  | .error e => .ok (if e = OK then .result (Vec.empty : Vec Nat).moveCtor.1 else .assignError e)
  | .nothing => .ok (.result (Vec.empty : Vec Nat).moveCtor.1)

/-- Pkcs11.cpp 102-128: `getInterfaceList`.  The result points into the member; `done()` then resets the member, which is `mutable`
inside `Expected` (Expected.hpp 71, 183-187), so that the object pointed to is destroyed.  `true`: the pointer returned is a result. -/
def getInterfaceList (l : Lib I F) : Exp Bool × Lib I F :=
  match l.ifaces with
  | .result _ => (.result true, { l with ifaces := .nothing })
  -- `returnError` is assigned as a named variable, whether set or indeterminate
  | _ => (.assignError 0, { l with ifaces := .nothing })

/-- Reading through the pointer `getInterfaceList` returned: the list must still be there. -/
def readInterfaces (l : Lib I F) : Res (List I) :=
  match l.ifaces with
  | .result v => v.toList
  | _ => .ub

inductive Op (I F : Type) where
  | start (a : Answers I F)
  | finalize (rv : Rv)
  /-- `getSlotIdCount`/`getSlotIdList`: one call of the module if there is a function list -/
  | getSlots
  | getInterfaceList
  /-- destructor (Pkcs11.cpp 18-21) -/
  | drop (rv : Rv)

def step (can : Nat → Bool) (s : St I F) : Op I F → Res (St I F)
  | .start a => match s.lib with
    | some l => match initAll can a s l with
      | .ok (_, s) => .ok s
      | .ub => .ub
      | .loop => .loop
    | none => .ub
  | .finalize rv => match s.lib with
    | some l => .ok (finalize rv s l).2
    | none => .ub
  | .getSlots => match s.lib with
    | some l => match getFunctionList l with
      | .result _ => .ok (if s.modInit then s else { s with log := .calledUninitialized :: s.log })
      | _ => .ok s
    | none => .ub
  | .getInterfaceList => match s.lib with
    | some l => .ok { s with lib := some (getInterfaceList l).2 }
    | none => .ub
  | .drop rv => match s.lib with
    | some l => .ok { (finalize rv s l).2 with lib := none }
    | none => .ub

end Flame.Pkcs11
