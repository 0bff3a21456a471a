import Verif.Own.SharedProps
import Verif.Own.UniqueProps
import Verif.Life.OptionalProps
import Verif.Net.Ipv4
import Verif.Conc.Registrar

/-!
# Testing and comparing objects

`SharedPointer`, `UniquePointer`, `Optional` and `Ipv4` have a conversion to `bool` that is not `explicit` and no comparison operators;
`AcceptedConnection` has such a conversion and `==` but not `!=`.  In C++14 `a == b` then means the built-in comparison of the two converted
operands (`bool` is promoted to `int`), and `a == 5` compares the promoted `bool` with 5.
-/

namespace Flame.Own.Truth
open Flame.Own Flame.Conc

/-- `bool` promoted to `int`. -/
def promote (b : Bool) : Int := if b then 1 else 0

/-- The built-in `==`, `!=` and `<` on two promoted operands. -/
def builtinEq (a b : Bool) : Bool := promote a == promote b
@[inherit_doc builtinEq] def builtinNe (a b : Bool) : Bool := promote a != promote b
@[inherit_doc builtinEq] def builtinLt (a b : Bool) : Bool := promote a < promote b

/-- Both operands are converted before they are compared; the order of the two does not matter here. -/
def both (f : Bool → Bool → Bool) (a b : Res Bool) : Res Bool :=
  match a, b with
  | .ok x, .ok y => .ok (f x y)
  | .loop, _ => .loop
  | _, _ => .ub

/-- Pointers.hpp 421-425 `SharedPointer::operator bool`: `operator->()` (415-419), that is `&members->object`: naming a member through a null, dangling or
indeterminate pointer is undefined; the address of a member of an existing object is not null. -/
def shared (s : Shared.St) (i : Nat) : Res Bool :=
  match s.vars[i]? with
  | some (.ptr r) => if Live r s.log then .ok true else .ub
  | _ => .ub

/-- The same on a machine that just adds the offset of `object` inside `Members` (164-165: behind the counter) to the value of `members`. -/
def sharedFlat (members offset : BitVec 64) : Bool := members + offset != 0#64

/-- Pointers.hpp 534-538 `UniquePointer::operator bool`: the pointer itself. -/
def unique (s : Unique.St) (i : Nat) : Res Bool :=
  match s.vars i with
  | some p => .ok p.isSome
  | none => .ub

/-- Optional.hpp 186-190 `operator bool`. -/
def optional {V : Type} (s : Life.Optional.St V) (i : Nat) : Res Bool :=
  match s.vars i with
  | some x => .ok x.fill
  | none => .ub

/-- `o == x` of an `Optional` and an integer. -/
def optionalEqInt {V : Type} (s : Life.Optional.St V) (i : Nat) (x : Int) : Res Bool :=
  match optional s i with
  | .ok b => .ok (promote b == x)
  | .loop => .loop
  | .ub => .ub

/-- `a == b` of two `Ipv4` objects: `operator bool` (Ipv4.cpp 158-170) of both.  (`operator Address` does not take part: there is no comparison of
`Address`.) -/
def ipv4Eq (a b : Ipv4.Obj) : Bool := builtinEq a.valid b.valid
@[inherit_doc ipv4Eq] def ipv4Ne (a b : Ipv4.Obj) : Bool := builtinNe a.valid b.valid

/-- AcceptedConnection.hpp 13-30. -/
structure Accepted where
  server : Int
  client : Int
  deriving DecidableEq

/-- AcceptedConnection.hpp 16-20 `operator==`. -/
def Accepted.eq (a b : Accepted) : Bool := a.server == b.server && a.client == b.client

/-- AcceptedConnection.hpp 22-26 `operator bool`. -/
def Accepted.valid (a : Accepted) : Bool := Registrar.valid .accepted (a.server, a.client)

/-- `a != b`: there is no `operator!=`, the converted operands are compared. -/
def Accepted.ne (a b : Accepted) : Bool := builtinNe a.valid b.valid

/-- `a == b` of two shared pointers. -/
def sharedEq (s : Shared.St) (i j : Nat) : Res Bool := both builtinEq (shared s i) (shared s j)

/-- `a == b` of two unique pointers. -/
def uniqueEq (s : Unique.St) (i j : Nat) : Res Bool := both builtinEq (unique s i) (unique s j)

/-- `a == b`, `a != b` of two `Optional` objects. -/
def optionalEq {V : Type} (s : Life.Optional.St V) (i j : Nat) : Res Bool := both builtinEq (optional s i) (optional s j)
@[inherit_doc optionalEq] def optionalNe {V : Type} (s : Life.Optional.St V) (i j : Nat) : Res Bool :=
  both builtinNe (optional s i) (optional s j)

end Flame.Own.Truth
