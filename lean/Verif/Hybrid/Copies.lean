import Verif.Hybrid.Model

/-!
# Copying, moving and assigning `HybridVector` (include/FlameIDE/Templates/HybridVector.hpp)

The copy and move operations are defaulted (314-315, 343-344) and thus those of the member `container`, a `Variant<Array, Vector>`.

`moved x` is what moving from an element with value `x` leaves in it.  Simplifications: the destruction of what the target held before is not
tracked; allocation succeeds in `Vector`'s copy constructor (it does not check).
-/

namespace Flame.HVec
variable {α : Type} (moved : α → α)

/-- HybridVector.hpp 1443-1461. -/
def capacity : HVec α → Nat
  | .unset => 0
  | .arr s => s.cap
  | .vec v => v.cap

/-- HybridVector.hpp 314 by Variant.hpp 450-455, 299-312: nothing, or the copy constructor of the container held. -/
def copyCtor : HVec α → Res (HVec α)
  | .unset => .ok .unset
  | .arr s => do
    let t ← SVec.ofOther s.cap s
    .ok (.arr t)
  | .vec v => do
    let w ← v.copy
    .ok (.vec w)

/-- An array whose elements have been moved from: they stay in it (Array.hpp 466-472 does not clean the source). -/
def movedArr (s : SVec α) : SVec α := { s with buf := (s.buf.take s.size).map (fun | .live x => .live (moved x) | c => c) ++ s.buf.drop s.size }

/-- HybridVector.hpp 315 by Variant.hpp 457-462, 314-327: the move constructor of the container held; the source's `currentIndex` stays.  The
result is the new object and the source. -/
def moveCtor : HVec α → Res (HVec α × HVec α)
  | .unset => .ok (.unset, .unset)
  | .arr s => do
    let t ← SVec.ofOther s.cap s
    .ok (.arr t, .arr (movedArr moved s))
  | .vec v => .ok (.vec v.moveCtor.1, .vec v.moveCtor.2)

/-- HybridVector.hpp 343 by Variant.hpp 488-498: only from a variant that is set, and not from itself (`same`). -/
def assign (same : Bool) (d src : HVec α) : Res (HVec α) :=
  if same then .ok d
  else match src with
    | .unset => .ok d
    | .arr s => copyCtor (.arr s)
    | .vec v => copyCtor (.vec v)

/-- HybridVector.hpp 344 by Variant.hpp 500-510: target and source afterwards (of different objects). -/
def moveAssign (d src : HVec α) : Res (HVec α × HVec α) :=
  match src with
  | .unset => .ok (d, .unset)
  | .arr s => moveCtor moved (.arr s)
  | .vec v => moveCtor moved (.vec v)

/-- HybridVector.hpp 1329-1331 (`const Array &`): Variant.hpp 464-472, 383-390. -/
def ofArray (s : SVec α) : Res (HVec α) := do
  let t ← SVec.ofOther s.cap s
  .ok (.arr t)

/-- HybridVector.hpp 1337-1339 (`const Vector &`). -/
def ofVector (v : Vec α) : Res (HVec α) := do
  let w ← v.copy
  .ok (.vec w)

/-- HybridVector.hpp 1333-1335 and 1341-1343 (`&&`): the new object and what is left of the argument. -/
def ofMoved (h : HVec α) : Res (HVec α × HVec α) := moveCtor moved h

/-- HybridVector.hpp 1470-1488: `copy = Me(realContainer)` constructs a temporary from the container and moves it into the result. -/
def clone : HVec α → Res (HVec α)
  | .unset => .ok .unset
  | .arr s => do
    let t ← ofArray s
    let r ← moveAssign moved .unset t
    .ok r.1
  | .vec v => do
    let t ← ofVector v
    let r ← moveAssign moved .unset t
    .ok r.1

end Flame.HVec
