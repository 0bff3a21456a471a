import Verif.Utils.TypeList

/-!
# Type modifiers (Common/Traits/Defaults.hpp, Numbers.hpp, Functional.hpp)

A C++ type is a tree: a fundamental or class type, pointers, arrays and references around it, each object type with its own `const` and
`volatile`.  The qualifiers of an array are those of its elements.  Function types and pointers to members are left out.  What a trait yields is a
type or a value, or the program does not compile (`Ct.error`).

`int64_t` is `long` on LP64 systems and `long long` elsewhere; `lp64` chooses.
-/

namespace Flame.TypeMod
open Flame.TypeList (Ct)

/-- The fundamental types other than `void`. -/
inductive Prim where
  | bool | char | wchar | schar | uchar | short | ushort | int | uint | long | ulong | llong | ullong | float | double | ldouble
  deriving DecidableEq, Repr

/-- `void`, fundamental types, and all other unqualified types (classes, enumerations). -/
inductive Base where
  | void
  | prim (p : Prim)
  | other (n : Nat)
  deriving DecidableEq, Repr

/-- C++ types; the two flags are `const` and `volatile`. -/
inductive Ty where
  | base (c v : Bool) (b : Base)
  | ptr (c v : Bool) (t : Ty)
  | arr (n : Nat) (t : Ty)
  | lref (t : Ty)
  | rref (t : Ty)
  deriving DecidableEq, Repr

namespace Ty

/-- The unqualified type of a fundamental type. -/
abbrev of (p : Prim) : Ty := .base false false (.prim p)

/-- `T const` matches (`IsConst`, Functional.hpp 118-131). -/
def isConst : Ty → Bool
  | .base c _ _ => c
  | .ptr c _ _ => c
  | .arr _ t => t.isConst
  | .lref _ => false
  | .rref _ => false

/-- `volatile T` matches (`IsVolatile`, Functional.hpp 133-143). -/
def isVolatile : Ty → Bool
  | .base _ v _ => v
  | .ptr _ v _ => v
  | .arr _ t => t.isVolatile
  | .lref _ => false
  | .rref _ => false

/-- The `T` that matches in `T const`. -/
def dropConst : Ty → Ty
  | .base _ v b => .base false v b
  | .ptr _ v t => .ptr false v t
  | .arr n t => .arr n t.dropConst
  | .lref t => .lref t
  | .rref t => .rref t

/-- The `T` that matches in `volatile T`. -/
def dropVolatile : Ty → Ty
  | .base c _ b => .base c false b
  | .ptr c _ t => .ptr c false t
  | .arr n t => .arr n t.dropVolatile
  | .lref t => .lref t
  | .rref t => .rref t

/-- The type `T const`; a reference takes no qualifier. -/
def withConst : Ty → Ty
  | .base _ v b => .base true v b
  | .ptr _ v t => .ptr true v t
  | .arr n t => .arr n t.withConst
  | .lref t => .lref t
  | .rref t => .rref t

/-- The type `volatile T`. -/
def withVolatile : Ty → Ty
  | .base c _ b => .base c true b
  | .ptr c _ t => .ptr c true t
  | .arr n t => .arr n t.withVolatile
  | .lref t => .lref t
  | .rref t => .rref t

/-- Functional.hpp 101-115 `IsReference`. -/
def isReference : Ty → Bool
  | .lref _ => true
  | .rref _ => true
  | _ => false

/-- Functional.hpp 85-98 `IsPointer`: the specialisation `T *` matches pointers without qualifiers. -/
def isPointer : Ty → Bool
  | .ptr false false _ => true
  | _ => false

/-- `void`, with or without qualifiers. -/
def isVoid : Ty → Bool
  | .base _ _ .void => true
  | _ => false

/-- Every type met on the way down counts, and every qualifier: for termination of `removeAll`. -/
def weight : Ty → Nat
  | .base c v _ => 1 + c.toNat + v.toNat
  | .ptr c v t => 1 + c.toNat + v.toNat + t.weight
  | .arr _ t => 1 + t.weight
  | .lref t => 1 + t.weight
  | .rref t => 1 + t.weight

/-- Defaults.hpp 91-108 `RemovePointerTrait`: the specialisation `T *` matches pointers without qualifiers. -/
def removePointer : Ty → Ty
  | .ptr false false t => t
  | t => t

/-- Defaults.hpp 110-133 `RemoveReferenceTrait`. -/
def removeReference : Ty → Ty
  | .lref t => t
  | .rref t => t
  | t => t

/-- Defaults.hpp 135-151 `RemoveConstTrait`. -/
def removeConst (t : Ty) : Ty := if t.isConst then t.dropConst else t

/-- Defaults.hpp 153-170 `RemoveVolatileTrait`. -/
def removeVolatile (t : Ty) : Ty := if t.isVolatile then t.dropVolatile else t

theorem weight_dropConst : ∀ t : Ty, t.dropConst.weight + t.isConst.toNat = t.weight
  | .base c v b => by cases c <;> simp [dropConst, weight, isConst] <;> omega
  | .ptr c v t => by cases c <;> simp [dropConst, weight, isConst] <;> omega
  | .arr n t => by have := weight_dropConst t; simp only [dropConst, weight, isConst]; omega
  | .lref t => by simp [dropConst, weight, isConst]
  | .rref t => by simp [dropConst, weight, isConst]

theorem weight_dropVolatile : ∀ t : Ty, t.dropVolatile.weight + t.isVolatile.toNat = t.weight
  | .base c v b => by cases v <;> simp [dropVolatile, weight, isVolatile]
  | .ptr c v t => by cases v <;> simp [dropVolatile, weight, isVolatile]; omega
  | .arr n t => by have := weight_dropVolatile t; simp only [dropVolatile, weight, isVolatile]; omega
  | .lref t => by simp [dropVolatile, weight, isVolatile]
  | .rref t => by simp [dropVolatile, weight, isVolatile]

theorem weight_removeConst (t : Ty) : t.removeConst.weight ≤ t.weight := by
  have := weight_dropConst t; unfold removeConst; split <;> omega

theorem weight_removeVolatile (t : Ty) : t.removeVolatile.weight ≤ t.weight := by
  have := weight_dropVolatile t; unfold removeVolatile; split <;> omega

theorem weight_removePointer (t : Ty) : t.removePointer.weight ≤ t.weight := by
  unfold removePointer; split <;> simp [weight]

theorem weight_removeReference (t : Ty) : t.removeReference.weight ≤ t.weight := by
  unfold removeReference; split <;> simp [weight]

/-- Defaults.hpp 172-226 `RemoveAllTrait`.  A type with both qualifiers matches the specialisations `volatile T` (185-189) and `T const` (200-204), neither
more specialised than the other: ambiguous, the program does not compile. -/
def removeAll (t : Ty) : Ct Ty :=
  if hc : t.isConst then
    if t.isVolatile then .error
    else
      have : t.dropConst.removeConst.weight < t.weight := by
        have h1 := weight_removeConst t.dropConst; have h2 := weight_dropConst t; rw [hc] at h2; simp at h2; omega
      removeAll t.dropConst.removeConst
  else if hv : t.isVolatile then
    have : t.dropVolatile.removeVolatile.weight < t.weight := by
      have h1 := weight_removeVolatile t.dropVolatile; have h2 := weight_dropVolatile t; rw [hv] at h2; simp at h2; omega
    removeAll t.dropVolatile.removeVolatile
  else match t with
    | .ptr c v u =>
      have : u.removePointer.weight < (Ty.ptr c v u).weight := by
        have := weight_removePointer u; simp only [weight]; omega
      removeAll u.removePointer
    | .lref u =>
      have : u.removeReference.weight < (Ty.lref u).weight := by
        have := weight_removeReference u; simp only [weight]; omega
      removeAll u.removeReference
    | .rref u =>
      have : u.removeReference.weight < (Ty.rref u).weight := by
        have := weight_removeReference u; simp only [weight]; omega
      removeAll u.removeReference
    | t => .val t
termination_by t.weight

/-- Which template of `DefaultTraits` (Defaults.hpp 43-89) is meant and whether it can be instantiated: unqualified `void` has a specialisation of its own
(81-88); otherwise the aliases `Type &`, `Type *` must be types, which excludes `void` with qualifiers and references (`Type *` is a pointer to
a reference).  -/
inductive Traits where
  | general
  | void
  | bad
  deriving DecidableEq

/-- Defaults.hpp 43-89. -/
def traits : Ty → Traits
  | .base false false .void => .void
  | .base _ _ .void => .bad
  | .lref _ => .bad
  | .rref _ => .bad
  | _ => .general

/-- Defaults.hpp 234-243 `AddReferenceTrait`. -/
def addReference (t : Ty) : Ct Ty := if t.traits = .general then .val (.lref t) else .error

/-- Defaults.hpp 245-254 `AddMoveReferenceTrait`. -/
def addMoveReference (t : Ty) : Ct Ty := if t.traits = .general then .val (.rref t) else .error

/-- Defaults.hpp 256-265 `AddConstTrait`. -/
def addConst (t : Ty) : Ct Ty := if t.traits = .general then .val t.withConst else .error

/-- Defaults.hpp 267-276 `AddPointerTrait`. -/
def addPointer (t : Ty) : Ct Ty := if t.traits = .bad then .error else .val (.ptr false false t)

/-- Defaults.hpp 278-287 `AddVolatileTrait`: `volatile typename DefaultTraits<T>::Pointer`. -/
def addVolatile (t : Ty) : Ct Ty := if t.traits = .bad then .error else .val (Ty.ptr false false t).withVolatile

/-! ## Numbers -/

/-- PrimitiveTypes.hpp 21-22: `long_t` and `ulong_t`. -/
def int64 (lp64 : Bool) : Prim := if lp64 then .long else .llong
@[inherit_doc int64] def uint64 (lp64 : Bool) : Prim := if lp64 then .ulong else .ullong

/-- The specialisations of `IsPrimitiveTrait` (Numbers.hpp 41-97). -/
def isPrimitive (lp64 : Bool) (t : Ty) : Bool :=
  t ∈ [of .char, of .schar, of .short, of .int, of (int64 lp64), of .uchar, of .ushort, of .uint, of (uint64 lp64), of .float, of .double, of .ldouble]

/-- Numbers.hpp 100-120 `IsFloatTrait`. -/
def isFloat (t : Ty) : Bool := t ∈ [of .float, of .double, of .ldouble]

/-- The two assertions of the primary templates (Numbers.hpp 128-131, 175-178, 234-238, 276-280). -/
def asserted (lp64 : Bool) (t : Ty) : Bool :=
  match t.removeAll with
  | .val u => isPrimitive lp64 u && !isFloat u
  | .error => false

/-- Numbers.hpp 122-167 `IsSignedTrait`. -/
def isSigned (lp64 : Bool) (t : Ty) : Ct Bool :=
  if t ∈ [of .uchar, of .ushort, of .uint, of (uint64 lp64)] then .val false
  else if t ∈ [of .schar, of .short, of .int, of (int64 lp64)] then .val true
  else if asserted lp64 t then .val false else .error

/-- Numbers.hpp 169-214 `IsUnsignedTrait`. -/
def isUnsigned (lp64 : Bool) (t : Ty) : Ct Bool :=
  if t ∈ [of .uchar, of .ushort, of .uint, of (uint64 lp64)] then .val true
  else if t ∈ [of .schar, of .short, of .int, of (int64 lp64)] then .val false
  else if asserted lp64 t then .val false else .error

/-- Numbers.hpp 216-226 `IsIntegralTrait`. -/
def isIntegral (lp64 : Bool) (t : Ty) : Bool := isPrimitive lp64 t && !isFloat t

/-- Numbers.hpp 228-268 `MakeSignedTrait`. -/
def makeSigned (lp64 : Bool) (t : Ty) : Ct Ty :=
  if t = of .uchar then .val (of .schar)
  else if t = of .ushort then .val (of .short)
  else if t = of .uint then .val (of .int)
  else if t = of (uint64 lp64) then .val (of (int64 lp64))
  else if asserted lp64 t then .val t else .error

/-- Numbers.hpp 270-310 `MakeUnsignedTrait`. -/
def makeUnsigned (lp64 : Bool) (t : Ty) : Ct Ty :=
  if t = of .schar then .val (of .uchar)
  else if t = of .short then .val (of .ushort)
  else if t = of .int then .val (of .uint)
  else if t = of (int64 lp64) then .val (of (uint64 lp64))
  else if asserted lp64 t then .val t else .error

/-- The full specialisations of `NumberLimitTrait` (Numbers.hpp 323-377): `MIN_VALUE` and `MAX_VALUE`, with the macros of `stdint.h`. -/
def limitOf (lp64 : Bool) (t : Ty) : Ct (Int × Int) :=
  if t = of .schar then .val (-128, 127)
  else if t = of .short then .val (-32768, 32767)
  else if t = of .int then .val (-2147483648, 2147483647)
  else if t = of (int64 lp64) then .val (-9223372036854775808, 9223372036854775807)
  else if t = of .uchar then .val (0, 255)
  else if t = of .ushort then .val (0, 65535)
  else if t = of .uint then .val (0, 4294967295)
  else if t = of (uint64 lp64) then .val (0, 18446744073709551615)
  else .error

/-- Numbers.hpp 312-383 `NumberLimitTrait`: `volatile IntType` (319-321) inherits from the unqualified one; every other type has no members. -/
def numberLimit (lp64 : Bool) (t : Ty) : Ct (Int × Int) :=
  if t.isVolatile then limitOf lp64 t.dropVolatile else limitOf lp64 t

/-! ## Users of `RemoveAllTrait` -/

/-- A pointer to `a` converts to a pointer to `b`: the same type, with at least the qualifiers (conversions between different types left out). -/
def ptrConverts (a b : Ty) : Bool :=
  a.dropConst.dropVolatile = b.dropConst.dropVolatile && (!a.isConst || b.isConst) && (!a.isVolatile || b.isVolatile)

/-- `DefaultTraits<T>::PointerToConst` (Defaults.hpp 57-58, 72-73, 84-85), the type pointed to. -/
def pointee (t : Ty) : Ct Ty := if t.traits = .bad then .error else .val t

/-- Variant.hpp 400-405 `get<T>()` of an alternative `T`: returns `&me.data.arg` as `DefaultTraits<RemoveAll<T>>::Pointer`; the type pointed to by the result. -/
def variantGet (t : Ty) : Ct Ty :=
  match t.removeAll with
  | .error => .error
  | .val u => match u.pointee with
    | .error => .error
    | .val u => if ptrConverts t u then .val u else .error

/-- Variant.hpp 407-412 `get<T>() const`: `&me.data.arg` is a pointer to `T const`, returned as `DefaultTraits<RemoveAll<T>>::PointerToConst`. -/
def variantGetConst (t : Ty) : Ct Ty :=
  match t.removeAll with
  | .error => .error
  | .val u => match u.pointee with
    | .error => .error
    | .val u => if ptrConverts t.withConst u.withConst then .val u.withConst else .error

/-- InitializerList.hpp 58-82: an argument whose deduced type is `arg` is accepted by `InitializerList<T>` if `RemoveAll` of it is `T`. -/
def initListAccepts (t arg : Ty) : Bool := t.traits = .general && arg.removeAll = .val t

end Ty
end Flame.TypeMod
