import Verif.Basic

/-!
# Lists of types (Common/Traits/Functional.hpp) and Tuple (Templates/Tuple.hpp)

Types are elements of an arbitrary `T` with decidable equality (`ComparingTypes`, Functional.hpp 50-62, is that equality).  A template argument pack is a list.
What the compiler computes is a value or an error.
-/

namespace Flame.TypeList

variable {T V : Type} [DecidableEq T]

/-- What a compile-time computation yields. -/
inductive Ct (α : Type) where
  | val (a : α)
  /-- the program does not compile -/
  | error
  deriving DecidableEq, Repr

/-- The member `Type` of GetTypeByIndex: a type of the pack, or `void`. -/
inductive Picked (T : Type) where
  | type (t : T)
  | void
  deriving DecidableEq, Repr

/-- Functional.hpp 17-43 `GetTypeByIndex<INDEX, Args...>::Type`.  The specialisation for an empty pack is `void` for index 0 (39-42) and has no
`Type` otherwise (33-37). -/
def typeByIndex : Nat → List T → Ct (Picked T)
  | 0, [] => .val .void
  | _ + 1, [] => .error
  | 0, a :: _ => .val (.type a)
  | i + 1, _ :: as => typeByIndex i as

/-- Functional.hpp 72-82 `ComparingTypeWithPack<T, Arg, Args...>::VALUE`; an empty pack does not match the template. -/
def inPack (t : T) : List T → Ct Bool
  | [] => .error
  | [a] => .val (t = a)
  | a :: b :: as => match inPack t (b :: as) with
    | .val r => .val ((t = a : Bool) || r)
    | .error => .error

/-- Functional.hpp 216-238 `IsUniqueParameterPack<Args...>::VALUE`: empty pack 219-221, two arguments 233-238, otherwise 226-231. -/
def isUnique : List T → Ct Bool
  | [] => .val true
  | [a, b] => match inPack a [b] with
    | .val r => .val (!r)
    | .error => .error
  | a :: as => match inPack a as, isUnique as with
    | .val r, .val u => .val (r || u)
    | _, _ => .error

/-- Functional.hpp 240-263 `GetIndexOfType<T, Args...>::INDEX`. -/
def indexOfType (t : T) : List T → Int
  | [] => -1
  | a :: as => if t = a then 0 else if indexOfType t as < 0 then indexOfType t as else 1 + indexOfType t as

/-! ## Tuple.hpp: the first member is `object`, the others are in the base class `Tuple<Args...>` -/

/-- Tuple.hpp 107-150: a tuple is its object and its base class. -/
inductive Tup (V : Type) where
  | nil
  | cons (object : V) (parent : Tup V)

/-- Tuple.hpp 164-167: the constructor from the values of the members. -/
def Tup.make : List V → Tup V
  | [] => .nil
  | a :: as => .cons a (Tup.make as)

/-- How the type of every member is moved: the new value and what is left (Tuple.hpp 169-172). -/
def Tup.makeMove (move : V → V × V) : List V → Tup V × List V
  | [] => (.nil, [])
  | a :: as =>
    let r := Tup.makeMove move as
    (.cons (move a).1 r.1, (move a).2 :: r.2)

/-- Tuple.hpp 42-78 `Getter<INDEX, Args...>::get`, Tuple.hpp 136-140 `get<INDEX>()` of a non-const tuple; beyond the last member the recursion ends in `Getter<INDEX>` whose
`get` takes no argument: an error. -/
def Tup.get : Nat → Tup V → Ct V
  | _, .nil => .error
  | 0, .cons v _ => .val v
  | i + 1, .cons _ p => Tup.get i p

/-- Assigning through the reference that `get<INDEX>()` returns. -/
def Tup.put : Nat → V → Tup V → Ct (Tup V)
  | _, _, .nil => .error
  | 0, w, .cons _ p => .val (.cons w p)
  | i + 1, w, .cons v p => match Tup.put i w p with
    | .val q => .val (.cons v q)
    | .error => .error

/-- Tuple.hpp 80-103 `ConstGetter`, 142-146 `get<INDEX>() const`: for index 0 the object; the primary template keeps `get` private and hands a
const tuple to `Getter`. -/
def Tup.getConst : Nat → Tup V → Ct V
  | 0, .cons v _ => .val v
  | _, _ => .error

end Flame.TypeList
