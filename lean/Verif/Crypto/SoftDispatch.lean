import Verif.Crypto.SoftTable
import Verif.Crypto.StructTable
import Verif.Crypto.Library

/-!
# Calls of the soft token, from the function list to the implementation — src/Crypto/SoftPkcs11

A function list (Callbacks.cpp, C98) holds pointers to exported functions; an exported function calls a member of
`CallbackAggregator`; the member is initialised with an implementation (`Flame.SoftTable`).
-/

namespace Flame.SoftDispatch
open SoftTable Structs
open Pkcs11 (Rv OK)

variable {V : Type}

/-- Which implementation a call of the exported function `name` reaches, and its arguments; `none`: no such function, callback or
argument (such a program does not compile). -/
def forward (name : String) (vals : List V) : Option (String × List V) := do
  let r ← interface.find? (·.name == name)
  if vals.length = r.arity then
    let args ← r.args.mapM (vals[·]?)
    let b ← bindings.find? (·.1 == r.callback)
    pure (b.2, args)
  else none

/-- A call through member `i` of a function list whose members point to exported functions; `none` is an indeterminate pointer. -/
def through (list : Obj String) (i : Nat) (vals : List V) : Res (Option (String × List V)) := match list i with
  | some name => .ok (forward name vals)
  | none => .ub

/-- Bytes by address. -/
abbrev Mem := Nat → Nat

/-- An implementation whose body is `unused(…)` and `return OK`: the answer and the memory afterwards; `none`: not one of those
(general functions, C94 and C95). -/
def runStub (impl : String) (vals : List Nat) (m : Mem) : Option (Rv × Mem) := do
  let f ← functions.find? (·.name == impl)
  if vals.length = f.arity ∧ f.stub = true then pure (OK, m) else none

/-- A call of an exported function that is served by a stub. -/
def call (name : String) (vals : List Nat) (m : Mem) : Option (Rv × Mem) := do
  let p ← forward name vals
  runStub p.1 p.2 m

/-- A history of calls: the answers in order and the memory at the end. -/
def calls : List (String × List Nat) → Mem → Option (List Rv × Mem)
  | [], m => some ([], m)
  | c :: cs, m => do
    let (r, m) ← call c.1 c.2 m
    let (rs, m) ← calls cs m
    pure (r :: rs, m)

end Flame.SoftDispatch
