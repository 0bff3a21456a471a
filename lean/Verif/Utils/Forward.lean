import Verif.Vector.Model
import Verif.Array.Model
import Verif.Hybrid.Model
import Verif.Circular.Model
import Verif.Life.Variant
import Verif.Life.Object

/-!
# What happens to the variables a caller passes

`Array`, `Vector`, `HybridVector`, `CircularArray`, `Variant` and `Object` take values through `const T &`, `T &&` and
`Args &&...` parameters and hand them on with `forward` and `move` (Common/Utils.hpp 337-354).  Here every argument
has its C++ value category, every function returns, beside the container, the value the caller's object has
afterwards.

* An argument is one object of the element type (`args...` is a single argument).
* `moved v` is what the element type's move constructor leaves in its source; the copy constructor leaves `v`.
* Everything else about the containers is as in their own models, whose functions are reused where the argument does
  not matter.
-/

namespace Flame.Fwd

/-- The value category of an expression: `x`, `x` declared const, `move(x)` or a temporary, the same of a const type. -/
inductive Cat where
  | lvalue
  | constLvalue
  | rvalue
  | constRvalue
  deriving DecidableEq, Repr

/-- The type of a parameter: `X &`, `const X &`, `X &&`, `const X &&`. -/
structure Par where
  const : Bool
  rref : Bool
  deriving DecidableEq, Repr

/-- Deduction of `template<typename T> f(T &&a)`: `T` is a reference for an lvalue, and `X & &&` is `X &`. -/
def deduce : Cat → Par
  | .lvalue => ⟨false, false⟩
  | .constLvalue => ⟨true, false⟩
  | .rvalue => ⟨false, true⟩
  | .constRvalue => ⟨true, true⟩

/-- Overload resolution between `f(const X &)` and `f(X &&)`, no templates. -/
def select : Cat → Par
  | .rvalue => ⟨false, true⟩
  | _ => ⟨true, false⟩

/-- Overload resolution between `template<typename T> f(const T &)` and `template<typename T> f(T &&)`: the second binds
exactly whatever is not a const lvalue, for which the first is more specialised. -/
def selectT : Cat → Par
  | .constLvalue => ⟨true, false⟩
  | c => deduce c

/-- The name of a parameter, used as an expression. -/
def name (p : Par) : Cat := if p.const then .constLvalue else .lvalue

/-- A cast to `X &&` of something const or not. -/
def xvalue (const : Bool) : Cat := if const then .constRvalue else .rvalue

/-- Common/Utils.hpp 337-341: `move(a)`. -/
def moveOf (p : Par) : Cat := xvalue p.const

/-- Common/Utils.hpp 343-354: `forward<decltype(a)>(a)`.  `a` is an lvalue, so only the overload taking `T &` (350-354)
accepts it; the result is `static_cast<decltype(a) &&>(a)`. -/
def forwardAs (p : Par) : Cat := if p.rref then xvalue p.const else name p

/-- Common/Utils.hpp 343-354: `forward(a)` with `T` deduced.  Of the two overloads the one taking `T &` is more specialised;
it deduces `T = X` and casts to `X &&`. -/
def forwardDeduced (p : Par) : Cat := xvalue p.const

/-- What the constructor of the element type leaves in its argument: the move constructor takes an rvalue, the copy
constructor anything else. -/
def left {V : Type} (moved : V → V) (c : Cat) (v : V) : V := match c with
  | .rvalue => moved v
  | _ => v

/-- Common/Utils.hpp 356-361: `emplaceNew(pointer, a)`: the argument afterwards. -/
def emplaceNew {V : Type} (moved : V → V) (c : Cat) (v : V) : V := left moved (forwardAs (deduce c)) v

/-- Common/Utils.hpp 363-377: `placementNew(pointer, a)`, overloads `T &&` (which forwards as `T`) and `const T &`. -/
def placementNew {V : Type} (moved : V → V) (c : Cat) (v : V) : V :=
  let p := select c
  left moved (if p.rref then moveOf p else name p) v

end Flame.Fwd

namespace Flame
open Fwd

variable {V : Type} (moved : V → V)

/-! ## Array -/

namespace SVec

/-- Array.hpp 769-778 (`const &`), 780-789 (`&&`). -/
def pushBackArg (s : SVec V) (c : Cat) (v : V) : Res (SVec V × V) :=
  let p := select c
  if s.size < s.cap then do
    let b ← s.buf.construct s.size v
    .ok (⟨b, s.size + 1⟩, placementNew moved (if p.rref then moveOf p else name p) v)
  else .ok (s, v)

/-- Array.hpp 791-797. -/
def emplaceBackArg (s : SVec V) (c : Cat) (v : V) : Res (SVec V × V) :=
  if s.size < s.cap then do
    let b ← s.buf.construct s.size v
    .ok (⟨b, s.size + 1⟩, emplaceNew moved (forwardAs (deduce c)) v)
  else .ok (s, v)

/-- Array.hpp 906-929. -/
def emplaceArg (triv : Bool) (s : SVec V) (pos : Nat) (c : Cat) (v : V) : Res (SVec V × V) :=
  if s.size < pos then .ub
  else if s.size < s.cap then
    if pos = s.size then s.emplaceBackArg moved (forwardAs (deduce c)) v
    else do
      let b ← s.buf.constructJunk s.size
      let b ← b.shiftUp triv pos 1 (s.size - pos)
      let b ← b.destroy triv pos
      let b ← b.construct pos v
      .ok (⟨b, s.size + 1⟩, emplaceNew moved (forwardAs (deduce c)) v)
  else .ok (s, v)

end SVec

/-! ## Vector -/

namespace Vec

/-- Vector.hpp 698-711 (`const &`), 713-723 (`&&`). -/
def pushBackArg (can : Nat → Bool) : Nat → Vec V → Cat → V → Res (Vec V × V)
  | 0, _, _, _ => .loop
  | f + 1, s, c, v =>
    let p := select c
    let a := if p.rref then moveOf p else name p
    if s.size ≠ s.cap then do
      let b ← s.buf.construct s.size v
      .ok ({ s with buf := b, size := s.size + 1 }, placementNew moved a v)
    else pushBackArg can f (s.reserve can s.nextCap) a v

/-- Vector.hpp 725-736. -/
def emplaceBackArg (can : Nat → Bool) : Nat → Vec V → Cat → V → Res (Vec V × V)
  | 0, _, _, _ => .loop
  | f + 1, s, c, v =>
    if s.size ≠ s.cap then do
      let b ← s.buf.construct s.size v
      .ok ({ s with buf := b, size := s.size + 1 }, emplaceNew moved (forwardAs (deduce c)) v)
    else emplaceBackArg can f (s.reserve can s.nextCap) (forwardAs (deduce c)) v

/-- Vector.hpp 849-878; line 868 is `placementNew`. -/
def emplaceArg (triv : Bool) (can : Nat → Bool) : Nat → Vec V → Nat → Cat → V → Res (Vec V × V)
  | 0, _, _, _, _ => .loop
  | f + 1, s, pos, c, v =>
    if s.size < pos then .ub
    else if s.size < s.cap then
      if pos = s.size then emplaceBackArg moved can f s (forwardAs (deduce c)) v
      else do
        let b ← s.buf.constructJunk s.size
        let b ← b.shiftUp triv pos 1 (s.size - pos)
        let b ← b.construct pos v
        .ok ({ s with buf := b, size := s.size + 1 }, placementNew moved (forwardAs (deduce c)) v)
    else emplaceArg triv can f (s.reserve can s.nextCap) pos (forwardAs (deduce c)) v

end Vec

/-! ## HybridVector: `forward(args)...` without a template argument -/

namespace HVec
variable (triv : Bool) (can : Nat → Bool) (N : Nat) (f : Nat)

/-- Array branch of HybridVector.hpp 1732-1748; 1742 calls `emplaceBack` again, which finds a vector (1747). -/
def emplaceBackArrArg (s : SVec V) (c : Cat) (v : V) : Res (HVec V × V) :=
  if s.cap > s.size then do
    let r ← s.emplaceBackArg moved (forwardDeduced (deduce c)) v
    .ok (.arr r.1, r.2)
  else do
    let w ← toVector can f s
    let r ← w.emplaceBackArg moved can f (forwardDeduced (deduce (forwardDeduced (deduce c)))) v
    .ok (.vec r.1, r.2)

/-- HybridVector.hpp 1726-1755. -/
def emplaceBackArg (h : HVec V) (c : Cat) (v : V) : Res (HVec V × V) :=
  match h with
  | .unset => emplaceBackArrArg moved can f (SVec.empty N) (forwardDeduced (deduce c)) v
  | .arr s => emplaceBackArrArg moved can f s c v
  | .vec s => do
    let r ← s.emplaceBackArg moved can f (forwardDeduced (deduce c)) v
    .ok (.vec r.1, r.2)

/-- HybridVector.hpp 1894-1927. -/
def emplaceArg (h : HVec V) (pos : Nat) (c : Cat) (v : V) : Res (HVec V × V) :=
  match h with
  | .unset => .ub
  | .arr s =>
    if s.cap = s.size then do
      let w ← toVector can f s
      let r ← w.emplaceArg moved triv can f pos (forwardDeduced (deduce (forwardDeduced (deduce c)))) v
      .ok (.vec r.1, r.2)
    else do
      let r ← s.emplaceArg moved triv pos (forwardDeduced (deduce c)) v
      .ok (.arr r.1, r.2)
  | .vec s => do
    let r ← s.emplaceArg moved triv can f pos (forwardDeduced (deduce c)) v
    .ok (.vec r.1, r.2)

end HVec

/-! ## CircularArray -/

namespace CArr

/-- CircularArray.hpp 355-364 (`const &`), 366-376 (`&&`). -/
def pushBackArg (s : CArr V) (c : Cat) (v : V) : Res (CArr V × V) :=
  let p := select c
  if s.size ≠ s.capacity then do
    let b ← s.buf.construct s.tail v
    .ok ({ s with buf := b, tail := updateTerminal s (s.tail + 1) }, placementNew moved (if p.rref then moveOf p else name p) v)
  else .ok (s, v)

/-- CircularArray.hpp 414-418: the element is made from the arguments first, as a temporary, and pushed if there is room. -/
def emplaceBackArg (s : CArr V) (c : Cat) (v : V) : Res (CArr V × V) := do
  let r ← s.pushBackArg moved .rvalue v
  .ok (r.1, left moved (forwardDeduced (deduce c)) v)

end CArr

/-! ## Variant and Object -/

namespace Life.Variant

/-- `VariantStruct::set` (Variant.hpp 286-296, 371-381, 383-428) for an argument of type `t`: the index and the
argument afterwards.  A const rvalue is of the type `const t`, which is no alternative (`isSameTypes`, 289, 295);
the overload for `T &&` moves at every level. -/
def setArgStruct : List Nat → Nat → Cat → V → Int × V
  | [], _, _, v => (-1, v)
  | a :: as, t, c, v =>
    let p := selectT c
    let c' := if p.rref then moveOf p else name p
    if t = a ∧ c ≠ .constRvalue then (0, left moved (if (selectT c').rref then moveOf (selectT c') else name (selectT c')) v) else
      let r := setArgStruct as t c' v
      (if r.1 < 0 then r.1 else r.1 + 1, r.2)

/-- What `Variant::set` (571-585) passes to `VariantStruct::set`: the overload for `T &&` always moves. -/
def passOn (c : Cat) : Cat := if c = .constLvalue then .constLvalue else moveOf (deduce c)

/-- Variant.hpp 571-585 `set(object)`. -/
def setArg (ts : List Nat) (s : St V) (i t : Nat) (c : Cat) (v : V) : Res (St V × V) :=
  match s.vars i with
  | none => .ub
  | some x => do
    let s ← resetVar ts s i x
    let (n, w) := setArgStruct moved ts t (passOn c) v
    if n < 0 then
      let s ← setIdx s i n
      .ok (s, w)
    else .ok (build s i n.toNat v n, w)

/-- Variant.hpp 464-480 with 221-232: construction from a value; a const rvalue does not compile (`execMove` takes `TT &&`). -/
def ctorArg (ts : List Nat) (s : St V) (i t : Nat) (c : Cat) (v : V) : Res (St V × V) :=
  match s.vars i with
  | some _ => .ub
  | none => do
    let s := { s with vars := Own.upd s.vars i (some fresh) }
    let (n, w) := setArgStruct moved ts t (passOn c) v
    if n < 0 then
      let s ← setIdx s i n
      .ok (s, w)
    else .ok (build s i n.toNat v n, w)

end Life.Variant

namespace Life.Object

/-- Object.hpp 154-181 `operator=`: overloads for `T &&` (156-166) and `const T &` (168-181). A plain lvalue selects the first
with `T = X &`, which does not compile (`alignedPointer<X &>`); it is no C++ program: `ub`. -/
def assignArg (al : Nat → Nat) (s : St V) (i t : Nat) (c : Cat) (v : V) : Res (St V × V) :=
  if c = .lvalue then .ub else do
    let s ← assignValue al s i t v
    let p := selectT c
    .ok (s, placementNew moved (if p.rref then moveOf p else name p) v)

/-- Object.hpp 117-130: construction from a value; the overload for `T &&` assigns `move(value)`. -/
def ctorArg (al : Nat → Nat) (s : St V) (i addr t : Nat) (c : Cat) (v : V) : Res (St V × V) :=
  match s.vars i with
  | some _ => .ub
  | none =>
    assignArg moved al { s with vars := Own.upd s.vars i (some (fresh addr)) } i t (if c = .constLvalue then .constLvalue else moveOf (deduce c)) v

end Life.Object

end Flame
