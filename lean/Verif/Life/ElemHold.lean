import Verif.Vector.ElemModel

/-!
# Small holders whose elements bring their own operations

`Optional<T>` (Optional.hpp), `StaticArray<T, N>` (Array.hpp 1270-1423, the array without a counter: all `N` objects always exist) and
`InitializerList<T, SIZE>` (InitializerList.hpp), over the element classes of `Verif/Vector/ElemModel.lean`.

Simplifications: source and target are different objects.  The move constructors and move assignments of a `StaticArray` (Array.hpp 1307-1331,
1399-1422) are not modelled: they bind an rvalue reference to a named object (`for (MoveReference i : array)`) and cannot be instantiated.  An
`InitializerList` without arguments cannot be made either (there is no `Helper<>`), so the argument lists that occur are not empty.
-/

namespace Flame.ElemHold
open Flame ElemVec

variable {E : Type}

/-! ## Optional -/

/-- Optional.hpp 92-98: `Optional(const T &)`. -/
def ofCopy (c : Cls E) (x : E) : Res (Option E) := do
  let y ← c.copy x
  .ok (some y)

/-- Optional.hpp 100-106: `Optional(T &&)`: (optional, argument afterwards). -/
def ofMove (c : Cls E) (x : E) : Option E × E := (some (c.move x).1, (c.move x).2)

/-- Optional.hpp 72-80. -/
def copyOpt (c : Cls E) (o : Option E) : Res (Option E) :=
  match o with
  | some x => ofCopy c x
  | none => .ok none

/-- Optional.hpp 82-90: (new optional, source afterwards); the source stays filled. -/
def moveOpt (c : Cls E) (o : Option E) : Option E × Option E :=
  match o with
  | some x => (some (c.move x).1, some (c.move x).2)
  | none => (none, none)

/-- Optional.hpp 156-169 and 222-226: `operator=(const T &)`, `set`. -/
def set (c : Cls E) (o : Option E) (x : E) : Res (Option E) :=
  match o with
  | some d => do
    let d ← c.assign d x
    .ok (some d)
  | none => ofCopy c x

/-- Optional.hpp 171-184 and 228-232: `operator=(T &&)`, `set`: (optional, argument afterwards). -/
def setMove (c : Cls E) (o : Option E) (x : E) : Res (Option E × E) :=
  match o with
  | some d => do
    let (d, x) ← c.massign d x
    .ok (some d, x)
  | none => .ok (ofMove c x)

/-- Optional.hpp 114-133: an empty source changes nothing. -/
def assignOpt (c : Cls E) (o src : Option E) : Res (Option E) :=
  match src with
  | some x => set c o x
  | none => .ok o

/-- Optional.hpp 135-154: (target, source afterwards). -/
def moveAssignOpt (c : Cls E) (o src : Option E) : Res (Option E × Option E) :=
  match src with
  | some x => do
    let (o, x) ← setMove c o x
    .ok (o, some x)
  | none => .ok (o, none)

/-! ## StaticArray -/

/-- Array.hpp 1277-1279: all objects are default constructed. -/
def fixed (c : Cls E) (N : Nat) : List E := List.replicate N c.dflt

/-- The loops of Array.hpp 1286-1291, 1299-1303 and 1336-1341: copy assignment, object after object. -/
def assignEach (c : Cls E) : List E → List E → Res (List E)
  | ds, [] => .ok ds
  | [], _ :: _ => .ub
  | d :: ds, x :: xs => do
    let d ← c.assign d x
    let ds ← assignEach c ds xs
    .ok (d :: ds)

/-- Array.hpp 1281-1304: copy construction (of an array with not more objects, 1284). -/
def arrayCopy (c : Cls E) (N : Nat) (src : List E) : Res (List E) :=
  if src.length ≤ N then assignEach c (fixed c N) src else .ok (fixed c N)

/-- The loops of Array.hpp 1350-1353 and 1364-1367: the iterator is not advanced. -/
def assignFirst (c : Cls E) : List E → List E → Res (List E)
  | ds, [] => .ok ds
  | [], _ :: _ => .ub
  | d :: ds, x :: xs => do
    let d ← c.assign d x
    assignFirst c (d :: ds) xs

/-- Array.hpp 1344-1370: copy assignment from another array. -/
def arrayAssign (c : Cls E) (ds src : List E) : Res (List E) :=
  if src.length ≤ ds.length then assignFirst c ds src else .ok ds

/-- Array.hpp 1333-1342: the list's iterators point to const objects, so `move(it)` is a constant and the object is copy-assigned. -/
def arrayOfList (c : Cls E) (N : Nat) (list : List E) : Res (List E) := assignEach c (fixed c N) list

/-! ## InitializerList -/

/-- An argument of the constructor: an object that is named (copied), or one that is given away (moved). -/
inductive Arg (E : Type) where
  | lv (x : E)
  | rv (x : E)

def Arg.given : Arg E → Bool
  | .lv _ => false
  | .rv _ => true

def Arg.val : Arg E → E
  | .lv x => x
  | .rv x => x

/-- InitializerList.hpp 56-82: argument after argument is assigned to object after object: (list, arguments afterwards). -/
def initEach (c : Cls E) : List E → List (Arg E) → Res (List E × List E)
  | ds, [] => .ok (ds, [])
  | [], _ :: _ => .ub
  | d :: ds, .lv x :: as => do
    let d ← c.assign d x
    let (ds, xs) ← initEach c ds as
    .ok (d :: ds, x :: xs)
  | d :: ds, .rv x :: as => do
    let (d, x) ← c.massign d x
    let (ds, xs) ← initEach c ds as
    .ok (d :: ds, x :: xs)

/-- InitializerList.hpp 95-101: the objects of the member array are default constructed first. -/
def listOf (c : Cls E) (SIZE : Nat) (as : List (Arg E)) : Res (List E × List E) := initEach c (fixed c SIZE) as

end Flame.ElemHold
