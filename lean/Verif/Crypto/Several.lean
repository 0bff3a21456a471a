import Verif.Crypto.Library

/-!
# Several `Pkcs11Library` objects — src/Crypto/Pkcs11/Pkcs11.cpp, src/Os/Library.cpp

Modules (shared libraries with `C_*` functions) are numbered.  Each is initialised or not; this is a variable of the module, shared by everything that
uses it.  The dynamic linker keeps a module mapped while a `Library` object for it exists (dlopen(3), dlclose(3)) or the program is linked with it;
a module that is unmapped loses its variables.  `dlsym` with the null handle, which is what an object without a library has, is `dlsym(RTLD_DEFAULT, …)`
on Linux and searches the program.

Simplifications: allocation succeeds; the interface list (C83) is only the result of reading it; slots and the shared pointers the objects live in are
the business of C165.
-/

namespace Flame.Pkcs11.Several
open Own

/-- What the linker knows. -/
structure World where
  /-- the module has `C_GetFunctionList` -/
  exports : Nat → Bool
  /-- the module whose `C_GetFunctionList` the program itself offers -/
  program : Option Nat

/-- A `Pkcs11Library`. -/
structure Obj where
  /-- `Library::handle`: the module that was loaded -/
  handle : Option Nat
  /-- `functionList`: the module whose functions these are -/
  functions : Option Nat
  /-- `status` -/
  status : Rv
  deriving DecidableEq

structure St where
  objs : Nat → Option Obj
  /-- the objects on whose behalf the module is open -/
  who : Nat → List Nat
  /-- the module is initialised -/
  init : Nat → Bool

def start : St := ⟨fun _ => none, fun _ => [], fun _ => false⟩

/-- The module is in memory. -/
def mapped (w : World) (who : List Nat) (m : Nat) : Bool := !who.isEmpty || w.program == some m

/-- Library.cpp 66-71: `find<GetFunctionList>`: the module the function found belongs to. -/
def find (w : World) (h : Option Nat) : Option Nat :=
  match h with
  | some m => if w.exports m then some m else none
  | none => w.program

/-- The module's answers to an initialisation. -/
structure Answers where
  functionList : Rv
  interfaceList : Rv
  initRv : Rv
  info : Rv
  deriving DecidableEq

/-- `C_Initialize` of a module. -/
def cInitialize (init : Nat → Bool) (m : Nat) (rv : Rv) : Rv × (Nat → Bool) :=
  if init m then (ALREADY_INITIALIZED, init)
  else if rv = OK then (OK, upd init m true) else (rv, init)

/-- `C_Finalize` of a module. -/
def cFinalize (init : Nat → Bool) (m : Nat) (rv : Rv) : Rv × (Nat → Bool) :=
  if init m then
    if rv = OK then (OK, upd init m false) else (rv, init)
  else (NOT_INITIALIZED, init)

/-- Pkcs11.cpp 228-251 `initializeFunctionList`. -/
def readFunctions (w : World) (a : Answers) (x : Obj) : Rv × Obj :=
  match find w x.handle with
  | none => (x.status, x)
  | some m => if a.functionList ≠ OK then (a.functionList, x) else (OK, { x with functions := some m })

/-- Pkcs11.cpp 58-69: `C_Initialize`, `C_GetInfo` and the status; `m` is the module of `functionList`. -/
def initializeRest (a : Answers) (x : Obj) (m : Nat) (init : Nat → Bool) : Rv × Obj × (Nat → Bool) :=
  let r := cInitialize init m a.initRv
  if r.1 ≠ OK then (r.1, x, r.2)
  else if a.info ≠ OK then (a.info, x, r.2)
  else (OK, { x with status := OK }, r.2)

/-- Pkcs11.cpp 38-70 `initialize`. -/
def initAll (w : World) (a : Answers) (x : Obj) (init : Nat → Bool) : Res (Rv × Obj × (Nat → Bool)) :=
  let r := readFunctions w a x
  if r.1 ≠ OK then .ok (r.1, r.2, init)
  else if a.interfaceList ≠ OK ∧ a.interfaceList ≠ NOT_SUPPORTED then .ok (a.interfaceList, r.2, init)
  else match r.2.functions with
    | some m => .ok (initializeRest a r.2 m init)
    -- a function list that was never filled
    | none => .ub

/-- Pkcs11.cpp 72-88 `finalize`. -/
def finalize (rv : Rv) (x : Obj) (init : Nat → Bool) : Res (Rv × (Nat → Bool)) :=
  if x.status = OK then match x.functions with
    | some m => .ok (cFinalize init m rv)
    | none => .ub
  -- the error is not seen (C34)
  else .ok (OK, init)

inductive Op where
  /-- `Pkcs11Library(name, directory)` (14-16): the module found, if any -/
  | create (i : Nat) (found : Option Nat)
  | init (i : Nat) (a : Answers)
  | finalize (i : Nat) (rv : Rv)
  /-- destructor (18-21) and that of `Library` (Library.cpp 44-52) -/
  | drop (i : Nat) (rv : Rv)
  deriving DecidableEq

/-- Library.cpp 44-52: object `i` closes module `m`, whose variables are gone if it is unmapped. -/
def close (w : World) (s : St) (i m : Nat) : St :=
  let left := (s.who m).filter (· ≠ i)
  { s with
    who := upd s.who m left
    init := if mapped w left m then s.init else upd s.init m false }

/-- The destructor of the object `x`, with variable `i`. -/
def destroy (w : World) (s : St) (i : Nat) (x : Obj) (rv : Rv) : Res St :=
  match finalize rv x s.init with
  | .ok r => match x.handle with
    | some m => .ok (close w { s with objs := upd s.objs i none, init := r.2 } i m)
    | none => .ok { s with objs := upd s.objs i none, init := r.2 }
  | .ub => .ub
  | .loop => .loop

def step (w : World) (s : St) : Op → Res St
  | .create i none => match s.objs i with
    | none => .ok { s with objs := upd s.objs i (some ⟨none, none, NOT_INITIALIZED⟩) }
    | some _ => .ub
  | .create i (some m) => match s.objs i with
    | none => .ok { s with objs := upd s.objs i (some ⟨some m, none, NOT_INITIALIZED⟩), who := upd s.who m (i :: s.who m) }
    | some _ => .ub
  | .init i a => match s.objs i with
    | some x => match initAll w a x s.init with
      | .ok r => .ok { s with objs := upd s.objs i (some r.2.1), init := r.2.2 }
      | .ub => .ub
      | .loop => .loop
    | none => .ub
  | .finalize i rv => match s.objs i with
    | some x => match finalize rv x s.init with
      | .ok r => .ok { s with init := r.2 }
      | .ub => .ub
      | .loop => .loop
    | none => .ub
  | .drop i rv => match s.objs i with
    | some x => destroy w s i x rv
    | none => .ub

/-- The object an operation is about. -/
def Op.about : Op → Nat
  | .create i _ => i
  | .init i _ => i
  | .finalize i _ => i
  | .drop i _ => i

end Flame.Pkcs11.Several
