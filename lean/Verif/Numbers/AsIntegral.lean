import Verif.Numbers.CInt

/-!
# `AsIntegralType<IntType>` — include/FlameIDE/Templates/AsIntegralType.hpp

The object is its value, an integer of type `t` (`IntType`).  Operands of another integral type `u` (`IntType1`) are given with
their type.  An operand that is itself an `AsIntegralType` is the case `u = t`.
-/

namespace Flame.AsIntegral

open CInt

/-- AsIntegralType.hpp 131-137: construction from an integer. -/
def make (t : IT) (v : Int) : Int := t.cast v

/-- AsIntegralType.hpp 139-147: assignment from an integer (implicit conversion). -/
def assign (t : IT) (_ v : Int) : Int := t.cast v

/-- AsIntegralType.hpp 155-201: conversion to an integral type. -/
def convert (u : IT) (x : Int) : Int := u.cast x

/-- AsIntegralType.hpp 149-153: conversion to `bool`. -/
def toBool (x : Int) : Bool := x ≠ 0

/-- AsIntegralType.hpp 203-209: `==` converts the *object's value* to the operand's type. -/
def eqInt (u : IT) (x y : Int) : Bool := u.cast x = y

/-- AsIntegralType.hpp 217-223: `!=` converts the *operand* to the object's type. -/
def neInt (t : IT) (x y : Int) : Bool := x ≠ t.cast y

/-- AsIntegralType.hpp 231-237: `>` -/
def gtInt (t : IT) (x y : Int) : Bool := x > t.cast y

/-- AsIntegralType.hpp 245-251: `<` -/
def ltInt (t : IT) (x y : Int) : Bool := x < t.cast y

/-- AsIntegralType.hpp 259-265: `>=` is computed with `>`. -/
def geInt (t : IT) (x y : Int) : Bool := x > t.cast y

/-- AsIntegralType.hpp 273-279: `<=` is computed with `<`. -/
def leInt (t : IT) (x y : Int) : Bool := x < t.cast y

/-- AsIntegralType.hpp 211-215, 225-229, 239-243, 253-257, 267-271, 281-285: operand of the same class. -/
def eqMe (x y : Int) : Bool := x = y
def neMe (x y : Int) : Bool := x ≠ y
def gtMe (x y : Int) : Bool := x > y
def ltMe (x y : Int) : Bool := x < y
def geMe (x y : Int) : Bool := x > y
def leMe (x y : Int) : Bool := x < y

/-- AsIntegralType.hpp 344-396, 479-540: `val op= static_cast<IntType>(value)` for `+ - *`; the plain operators do the same on a copy. -/
def arith (o : Arith) (t : IT) (x y : Int) : Res Int := (arithOp o t t x (t.cast y)).bind fun r => .ok (t.cast r)

/-- AsIntegralType.hpp 398-414, 542-561: `/=` and `/`. -/
def div (t : IT) (x y : Int) : Res Int := (divOp t t x (t.cast y)).bind fun r => .ok (t.cast r)

/-- AsIntegralType.hpp 305-321, 416-435: `<<=` and `<<`. -/
def shl (t : IT) (x y : Int) : Res Int := (shlOp t x (t.cast y)).bind fun r => .ok (t.cast r)

/-- AsIntegralType.hpp 287-303, 437-456: `>>=` and `>>`. -/
def shr (t : IT) (x y : Int) : Res Int := (shrOp t x (t.cast y)).bind fun r => .ok (t.cast r)

/-- AsIntegralType.hpp 324-340, 458-477: `|=` and `|`. -/
def or (t : IT) (x y : Int) : Int := t.cast (bitOp .or t t x (t.cast y))

end Flame.AsIntegral
