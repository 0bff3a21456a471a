import Verif.Basic

/-!
# Structure wrappers, in general — src/Crypto/Pkcs11/Types/Structs/*.cpp

Every wrapper is written after the same pattern: `operator=(const Parent &)` assigns member after member (array members with `copy`, C53/C70), everything that
copies calls it, a value constructor assigns its parameters, and the default constructor either starts from `Parent{}` or does nothing.  A `Rec` is what
distinguishes one wrapper from another; an object is a table of members, `none` being indeterminate.
-/

namespace Flame.Structs

structure Rec where
  name : String
  fields : List String
  /-- `operator=(const Parent &)`: target and source member of each assignment -/
  assigns : List (Nat × Nat)
  /-- the member each parameter of the value constructor is declared for -/
  params : List Nat
  /-- assignments of the value constructor: member and parameter -/
  ctor : List (Nat × Nat)
  /-- the default constructor starts from `Parent{}` -/
  zeroed : Bool

/-- An object: the value of each member; `none`: indeterminate. -/
abbrev Obj (V : Type) := Nat → Option V

variable {V : Type}

/-- One assignment `target = value`. -/
def store (o : Obj V) (f : Nat) (v : Option V) : Obj V := fun k => if k = f then v else o k

/-- `operator=(const Parent &)` of an object onto another one. -/
def Rec.assign (r : Rec) (t s : Obj V) : Obj V := r.assigns.foldl (fun o p => store o p.1 (s p.2)) t

/-- A storage without an object yet. -/
def fresh : Obj V := fun _ => none

/-- Copy constructor. -/
def Rec.copy (r : Rec) (s : Obj V) : Obj V := r.assign fresh s

/-- Value constructor. -/
def Rec.construct (r : Rec) (args : List V) : Obj V := r.ctor.foldl (fun o p => store o p.1 args[p.2]?) fresh

/-- Default constructor; `zero` is the value of `Parent{}`'s members. -/
def Rec.default (r : Rec) (zero : V) : Obj V := if r.zeroed then r.assign fresh (fun _ => some zero) else fresh

end Flame.Structs
