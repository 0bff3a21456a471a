import Verif.Vector.Model

/-!
# Constructor and destructor calls of a `Vector` (include/FlameIDE/Templates/Vector.hpp)

The functions of `Verif/Vector/Model.lean` again, with the same control flow, carrying the number of element objects constructed so
far and the number of destructor calls so far.  Assignments (also by move) neither construct nor destroy.
-/

namespace Flame

/-- Element objects constructed, destructor calls made. -/
structure Tally where
  made : Nat
  ended : Nat
  deriving Repr, DecidableEq

/-- `n` more constructions. -/
def Tally.make (t : Tally) (n : Nat) : Tally := { t with made := t.made + n }

/-- `n` more destructions. -/
def Tally.finish (t : Tally) (n : Nat) : Tally := { t with ended := t.ended + n }

namespace Cells
variable {α : Type u}

/-- `placementNew<Type>(p, value)` (Common/Utils.hpp 363-376): one constructor call. -/
def constructT (b : Cells α) (i : Nat) (a : α) (t : Tally) : Res (Cells α × Tally) := do
  let b ← b.construct i a
  .ok (b, t.make 1)

/-- `emplaceNew<Type>(p)` (Common/Utils.hpp 356-361): one constructor call. -/
def constructJunkT (b : Cells α) (i : Nat) (t : Tally) : Res (Cells α × Tally) := do
  let b ← b.constructJunk i
  .ok (b, t.make 1)

/-- `p->~T()`: one destructor call. -/
def destroyT (triv : Bool) (b : Cells α) (i : Nat) (t : Tally) : Res (Cells α × Tally) := do
  let b ← b.destroy triv i
  .ok (b, t.finish 1)

/-- Loop of destructor calls (`Cells.destroyRange`). -/
def destroyRangeT (triv : Bool) (b : Cells α) (i : Nat) : Nat → Tally → Res (Cells α × Tally)
  | 0, t => .ok (b, t)
  | n + 1, t => do
    let r ← destroyT triv b i t
    destroyRangeT triv r.1 (i + 1) n r.2

/-- Loop of default constructions (`Cells.junkRange`). -/
def junkRangeT (b : Cells α) (i : Nat) : Nat → Tally → Res (Cells α × Tally)
  | 0, t => .ok (b, t)
  | n + 1, t => do
    let r ← constructJunkT b i t
    junkRangeT r.1 (i + 1) n r.2

end Cells

namespace Vec
variable {α : Type u}

/-- Vector.hpp 568-604: `reserve`.  `re n` says whether `reallocateArray` provides `n` elements; when it does not and a new array is
created instead, every element is constructed there by move and the old one destroyed (583-590).  Simplification: what lies behind
the end of the sequence is kept in that case, too. -/
def reserveT (can re : Nat → Bool) (v : Vec α) (n : Nat) (t : Tally) : Vec α × Tally :=
  (v.reserve can n, if v.cap < n ∧ can n = true ∧ re n = false then (t.make v.size).finish v.size else t)

/-- Vector.hpp 698-736. -/
def pushBackT (can re : Nat → Bool) : Nat → Vec α → α → Tally → Res (Vec α × Tally)
  | 0, _, _, _ => .loop
  | f + 1, v, x, t =>
    if v.size ≠ v.cap then do
      let r ← v.buf.constructT v.size x t
      .ok ({ v with buf := r.1, size := v.size + 1 }, r.2)
    else
      let r := v.reserveT can re v.nextCap t
      pushBackT can re f r.1 x r.2

/-- Vector.hpp 738-743. -/
def popBackT (triv : Bool) (v : Vec α) (t : Tally) : Res (Vec α × Tally) :=
  if v.size ≠ 0 then do
    let r ← v.buf.destroyT triv (v.size - 1) t
    .ok ({ v with buf := r.1, size := v.size - 1 }, r.2)
  else .ok (v, t)

/-- Vector.hpp 606-615. -/
def cleanT (triv : Bool) (v : Vec α) (t : Tally) : Res (Vec α × Tally) := do
  let r ← v.buf.destroyRangeT triv 0 v.size t
  .ok ({ v with buf := r.1, size := 0 }, r.2)

/-- Vector.hpp 745-773: line 755 constructs, 763 assigns. -/
def insertT (triv : Bool) (can re : Nat → Bool) : Nat → Vec α → Nat → α → Tally → Res (Vec α × Tally)
  | 0, _, _, _, _ => .loop
  | f + 1, v, pos, x, t =>
    if v.size < pos then .ub
    else if v.size < v.cap then
      if pos = v.size then pushBackT can re f v x t
      else do
        let r ← v.buf.constructJunkT v.size t
        let b ← r.1.shiftUp triv pos 1 (v.size - pos)
        let b ← b.assign triv pos x
        .ok ({ v with buf := b, size := v.size + 1 }, r.2)
    else
      let r := v.reserveT can re v.nextCap t
      insertT triv can re f r.1 pos x r.2

/-- Vector.hpp 849-878: line 859 constructs, and line 868 constructs again, over the moved-from object. -/
def emplaceT (triv : Bool) (can re : Nat → Bool) : Nat → Vec α → Nat → α → Tally → Res (Vec α × Tally)
  | 0, _, _, _, _ => .loop
  | f + 1, v, pos, x, t =>
    if v.size < pos then .ub
    else if v.size < v.cap then
      if pos = v.size then pushBackT can re f v x t
      else do
        let r ← v.buf.constructJunkT v.size t
        let b ← r.1.shiftUp triv pos 1 (v.size - pos)
        let r ← b.constructT pos x r.2
        .ok ({ v with buf := r.1, size := v.size + 1 }, r.2)
    else
      let r := v.reserveT can re v.nextCap t
      emplaceT triv can re f r.1 pos x r.2

/-- Loop of `pushBack` (Vector.hpp 818-819). -/
def pushBackListT (can re : Nat → Bool) (f : Nat) : Vec α → List α → Tally → Res (Vec α × Tally)
  | v, [], t => .ok (v, t)
  | v, x :: xs, t => do
    let r ← pushBackT can re f v x t
    pushBackListT can re f r.1 xs r.2

/-- Vector.hpp 806-847. -/
def insertRangeT (triv : Bool) (can re : Nat → Bool) : Nat → Vec α → Nat → List α → Tally → Res (Vec α × Tally)
  | 0, _, _, _, _ => .loop
  | f + 1, v, pos, xs, t =>
    if v.size < pos then .ub
    else if xs.length = 0 then .ok (v, t)
    else if xs.length + v.size ≤ v.cap then
      if pos = v.size then pushBackListT can re f v xs t
      else do
        let r ← v.buf.junkRangeT v.size xs.length t
        let b ← r.1.shiftUp triv pos xs.length (v.size - pos)
        let b ← b.assignList triv pos xs
        .ok ({ v with buf := b, size := v.size + xs.length }, r.2)
    else
      let r := v.reserveT can re (v.cap + xs.length) t
      insertRangeT triv can re f r.1 pos xs r.2

/-- Vector.hpp 880-896: only assignments, then `--tail`. -/
def eraseT (triv : Bool) (v : Vec α) (pos : Nat) (t : Tally) : Res (Vec α × Tally) :=
  if v.size < pos then .ub
  else if pos = v.size then .ok (v, t)
  else if pos + 1 = v.size then popBackT triv v t
  else do
    let b ← v.buf.shiftDown triv (pos + 1) pos (v.size - (pos + 1))
    .ok ({ v with buf := b, size := v.size - 1 }, t)

/-- Vector.hpp 898-919. -/
def eraseRangeT (triv : Bool) (v : Vec α) (b e : Nat) (t : Tally) : Res (Vec α × Tally) :=
  if v.size < b ∨ v.size < e then .ub
  else if e < b then .ok (v, t)
  else if e - b = v.size then cleanT triv v t
  else if 0 < e - b then do
    let r ← v.buf.destroyRangeT triv b (e - b) t
    let c ← r.1.shiftDown triv e b (v.size - e)
    .ok ({ v with buf := c, size := v.size - (e - b) }, r.2)
  else .ok (v, t)

/-- One call. -/
def stepT (triv : Bool) (can re : Nat → Bool) (f : Nat) (s : Vec α × Tally) : Op α → Res (Vec α × Tally)
  | .pushBack x => s.1.pushBackT can re f x s.2
  | .popBack => s.1.popBackT triv s.2
  | .insert p x => s.1.insertT triv can re f p x s.2
  | .emplace p x => s.1.emplaceT triv can re f p x s.2
  | .insertRange p xs => s.1.insertRangeT triv can re f p xs s.2
  | .erase p => s.1.eraseT triv p s.2
  | .eraseRange b e => s.1.eraseRangeT triv b e s.2
  | .reserve n => .ok (s.1.reserveT can re n s.2)
  | .clean => s.1.cleanT triv s.2

/-- Vector.hpp 461-466: the destructor: `clean`, then the array is freed. -/
def destructT (triv : Bool) (s : Vec α × Tally) : Res Tally :=
  match s.1.cleanT triv s.2 with
  | .ok r => .ok r.2
  | .ub => .ub
  | .loop => .loop

end Vec
end Flame
