import Verif.Basic

/-!
# The UBJSON tables and the value holder

include/FlameIDE/Ubjson/Types.hpp 10-53 (the two enumerations), Traits.hpp 27-178 (`ValueTraits`), Value.hpp 16-34 (the alternatives of
`ValueVariant`), BaseValue.hpp 15-36 (`TraitValues`), 40-90 (`BaseValue<…, false>`), SimpleTypeValues.hpp 8-28.

Simplifications: a `ValueType` template argument is represented by `Rep`, what its declaration says about its width; `TraitValues::getType` and
`getTypeClose` convert between unrelated enumerations and do not compile when they are used, so they have no model.  `BaseValue<…, true>` is
modelled in `Ubjson/Held`.
-/

namespace Flame.Ubjson

/-- Types.hpp 10-31: `ValueType`, the markers. -/
inductive Marker where
  | nullval | noop | true | false | int8 | uint8 | int16 | int32 | int64 | float32 | float64 | hugeNum | char | string
  | arrayOpen | arrayClose | objectOpen | objectClose | error
  deriving DecidableEq, Repr

/-- Types.hpp 12-30: the value of an enumerator, an 8-bit unsigned number. -/
def Marker.byte : Marker → Nat
  | .nullval => 'Z'.toNat
  | .noop => 'N'.toNat
  | .true => 'T'.toNat
  | .false => 'F'.toNat
  | .int8 => 'i'.toNat
  | .uint8 => 'U'.toNat
  | .int16 => 'I'.toNat
  | .int32 => 'l'.toNat
  | .int64 => 'L'.toNat
  | .float32 => 'd'.toNat
  | .float64 => 'D'.toNat
  | .hugeNum => 'H'.toNat
  | .char => 'C'.toNat
  | .string => 'S'.toNat
  | .arrayOpen => '['.toNat
  | .arrayClose => ']'.toNat
  | .objectOpen => '{'.toNat
  | .objectClose => '}'.toNat
  | .error => 0xFF

/-- Types.hpp 33-51: the enumerators of `EnumeratedValueType` that name a type. -/
inductive Kind where
  | nullval | noop | true | false | int8 | uint8 | int16 | int32 | int64 | float32 | float64 | hugeNum | char | string | array | object
  deriving DecidableEq, Repr

/-- Types.hpp 35-50: enumerators without an initialiser count from 0. -/
def Kind.value : Kind → Nat
  | .nullval => 0
  | .noop => 1
  | .true => 2
  | .false => 3
  | .int8 => 4
  | .uint8 => 5
  | .int16 => 6
  | .int32 => 7
  | .int64 => 8
  | .float32 => 9
  | .float64 => 10
  | .hugeNum => 11
  | .char => 12
  | .string => 13
  | .array => 14
  | .object => 15

/-- Types.hpp 51 -/
def errorValue : Nat := 0xFF

/-- Types.hpp 52: `ENUMERATED_TYPE_COUNT` -/
def typeCount : Nat := Kind.object.value + 2

/-- What a payload type is: a class without members, a number of a width in bits (PrimitiveTypes.hpp 14-24), or a class of the library. -/
inductive Rep where
  | none
  | empty
  | signed (bits : Nat)
  | unsigned (bits : Nat)
  | float (bits : Nat)
  | char
  | cls
  deriving DecidableEq, Repr

structure Traits where
  marker : Marker
  close : Marker
  payload : Bool
  rep : Rep
  deriving DecidableEq, Repr

/-- Traits.hpp 36-178: the specialisations of `ValueTraits`. -/
def traits : Kind → Traits
  | .nullval => ⟨.nullval, .error, Bool.false, .empty⟩
  | .noop => ⟨.noop, .error, Bool.false, .empty⟩
  | .true => ⟨.true, .error, Bool.true, .empty⟩
  | .false => ⟨.false, .error, Bool.true, .empty⟩
  | .int8 => ⟨.int8, .error, Bool.true, .signed 8⟩
  | .uint8 => ⟨.uint8, .error, Bool.true, .unsigned 8⟩
  | .int16 => ⟨.int16, .error, Bool.true, .signed 16⟩
  | .int32 => ⟨.int32, .error, Bool.true, .signed 32⟩
  | .int64 => ⟨.int64, .error, Bool.true, .signed 64⟩
  | .float32 => ⟨.float32, .error, Bool.true, .float 32⟩
  | .float64 => ⟨.float64, .error, Bool.true, .float 64⟩
  | .char => ⟨.char, .error, Bool.true, .char⟩
  | .hugeNum => ⟨.hugeNum, .error, Bool.true, .cls⟩
  | .string => ⟨.string, .error, Bool.true, .cls⟩
  | .array => ⟨.arrayOpen, .arrayClose, Bool.true, .cls⟩
  | .object => ⟨.objectOpen, .objectClose, Bool.true, .cls⟩

/-- `ValueTraits<static_cast<EnumeratedValueType>(v)>`: a specialisation where `v` is the value of an enumerator with one, the primary template
(Traits.hpp 27-34) otherwise. -/
def traitsAt (v : Nat) : Traits :=
  match [Kind.nullval, .noop, .true, .false, .int8, .uint8, .int16, .int32, .int64, .float32, .float64, .hugeNum, .char, .string, .array,
    .object].find? (·.value == v) with
  | some k => traits k
  | Option.none => ⟨.error, .error, Bool.false, .none⟩

/-- Value.hpp 17-34: the alternatives of `ValueVariant`, in order. -/
def alternatives : List Kind :=
  [.nullval, .noop, .true, .false, .int8, .uint8, .int16, .int32, .int64, .float32, .float64, .hugeNum, .char, .string, .array, .object]

/-- Value.hpp 53-63: `Value::getType`, where `index` is what `getCurrentIndex` answers (-1 for an empty variant).  The conversion to an 8-bit
enumeration keeps the value modulo 256. -/
def getType (index : Int) : Nat :=
  if index < 0 then errorValue else index.toNat % 256

/-- BaseValue.hpp 15-36 and 40-90: `BaseValue<KIND, false>` whose payload has values in `α`; `none`: the value of a member that was
not initialised. -/
structure Base (α : Type) where
  kind : Kind
  value : Option α

namespace Base
variable {α : Type}

/-- BaseValue.hpp 48 -/
def default (k : Kind) : Base α := ⟨k, none⟩

/-- 52-56 -/
def mk' (k : Kind) (a : α) : Base α := ⟨k, some a⟩

/-- 32-35 -/
def isDataPayload (b : Base α) : Bool := (traits b.kind).payload

/-- 73-76 -/
def toBool (_ : Base α) : Bool := Bool.true

/-- 78-86, followed by a read -/
def read (b : Base α) : Res α :=
  match b.value with
  | some a => .ok a
  | none => .ub

/-- 78-81, followed by a write through the reference -/
def write (b : Base α) (a : α) : Base α := { b with value := some a }

/-- 60-61 (the memberwise assignment of an object with an indeterminate value: the value stays indeterminate) -/
def assign (b c : Base α) : Base α := { b with value := c.value }

/-- 63-71: the member is assigned and the end of the function is reached without `return`. -/
def assignValue (b : Base α) (a : α) : Res (Base α) :=
  let _ := { b with value := some a }
  .ub

end Base
end Flame.Ubjson
