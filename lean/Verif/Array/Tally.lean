import Verif.Array.Model
import Verif.Vector.Tally

/-!
# Constructor and destructor calls of `Array<T, N, false>` (include/FlameIDE/Templates/Array.hpp)

The functions of `Verif/Array/Model.lean` again, with the same control flow, carrying the number of element objects constructed and the
number of destructor calls.
-/

namespace Flame
namespace SVec
variable {α : Type u}

/-- Array.hpp 770-797. -/
def pushBackT (s : SVec α) (x : α) (t : Tally) : Res (SVec α × Tally) :=
  if s.size < s.cap then do
    let r ← s.buf.constructT s.size x t
    .ok (⟨r.1, s.size + 1⟩, r.2)
  else .ok (s, t)

/-- Loops of `pushBack` (e.g. Array.hpp 618-620, 873-876). -/
def pushBackListT (s : SVec α) : List α → Tally → Res (SVec α × Tally)
  | [], t => .ok (s, t)
  | x :: xs, t => do
    let r ← s.pushBackT x t
    pushBackListT r.1 xs r.2

/-- Array.hpp 799-807. -/
def popBackT (triv : Bool) (s : SVec α) (t : Tally) : Res (SVec α × Tally) :=
  if s.size ≠ 0 then do
    let r ← s.buf.destroyT triv (s.size - 1) t
    .ok (⟨r.1, s.size - 1⟩, r.2)
  else .ok (s, t)

/-- Array.hpp 677-683. -/
def cleanT (triv : Bool) (s : SVec α) (t : Tally) : Res (SVec α × Tally) := do
  let r ← s.buf.destroyRangeT triv 0 s.size t
  .ok (⟨r.1, 0⟩, r.2)

/-- Array.hpp 809-857: the end is default constructed, the position is assigned. -/
def insertT (triv : Bool) (s : SVec α) (pos : Nat) (x : α) (t : Tally) : Res (SVec α × Tally) :=
  if s.size < pos then .ub
  else if s.size < s.cap then
    if pos = s.size then s.pushBackT x t
    else do
      let r ← s.buf.constructJunkT s.size t
      let b ← r.1.shiftUp triv pos 1 (s.size - pos)
      let b ← b.assign triv pos x
      .ok (⟨b, s.size + 1⟩, r.2)
  else .ok (s, t)

/-- Array.hpp 906-929: the moved-from object is destroyed (923) before the construction (924). -/
def emplaceT (triv : Bool) (s : SVec α) (pos : Nat) (x : α) (t : Tally) : Res (SVec α × Tally) :=
  if s.size < pos then .ub
  else if s.size < s.cap then
    if pos = s.size then s.pushBackT x t
    else do
      let r ← s.buf.constructJunkT s.size t
      let b ← r.1.shiftUp triv pos 1 (s.size - pos)
      let r ← b.destroyT triv pos r.2
      let r ← r.1.constructT pos x r.2
      .ok (⟨r.1, s.size + 1⟩, r.2)
  else .ok (s, t)

/-- Array.hpp 859-904. -/
def insertRangeT (triv : Bool) (s : SVec α) (pos : Nat) (xs : List α) (t : Tally) : Res (SVec α × Tally) :=
  if s.size < pos then .ub
  else if xs.length = 0 then .ok (s, t)
  else if xs.length + s.size ≤ s.cap then
    if pos = s.size then s.pushBackListT xs t
    else do
      let r ← s.buf.junkRangeT s.size xs.length t
      let b ← r.1.shiftUp triv pos xs.length (s.size - pos)
      let b ← b.assignList triv pos xs
      .ok (⟨b, s.size + xs.length⟩, r.2)
  else .ok (s, t)

/-- Array.hpp 931-947: only assignments, then `--tail`. -/
def eraseT (triv : Bool) (s : SVec α) (pos : Nat) (t : Tally) : Res (SVec α × Tally) :=
  if s.size < pos then .ub
  else if pos = s.size then .ok (s, t)
  else if pos + 1 = s.size then popBackT triv s t
  else do
    let b ← s.buf.shiftDown triv (pos + 1) pos (s.size - (pos + 1))
    .ok (⟨b, s.size - 1⟩, t)

/-- Array.hpp 949-969. -/
def eraseRangeT (triv : Bool) (s : SVec α) (b e : Nat) (t : Tally) : Res (SVec α × Tally) :=
  if s.size < b ∨ s.size < e then .ub
  else if e = b + s.size then cleanT triv s t
  else if e < b + s.size ∧ b < e then do
    let r ← s.buf.destroyRangeT triv b (e - b) t
    let c ← r.1.shiftDown triv e b (s.size - e)
    .ok (⟨c, s.size - (e - b)⟩, r.2)
  else .ok (s, t)

/-- Array.hpp 971-980: `clean`; the zeroing of the bytes destroys nothing. -/
def resetT (triv : Bool) (s : SVec α) (t : Tally) : Res (SVec α × Tally) := do
  let r ← s.cleanT triv t
  .ok (⟨List.replicate r.1.buf.length .raw, r.1.size⟩, r.2)

/-- One call. -/
def stepT (triv : Bool) (s : SVec α × Tally) : Op α → Res (SVec α × Tally)
  | .pushBack x => s.1.pushBackT x s.2
  | .popBack => s.1.popBackT triv s.2
  | .insert p x => s.1.insertT triv p x s.2
  | .emplace p x => s.1.emplaceT triv p x s.2
  | .insertRange p xs => s.1.insertRangeT triv p xs s.2
  | .appendRange xs => s.1.pushBackListT xs s.2
  | .erase p => s.1.eraseT triv p s.2
  | .eraseRange b e => s.1.eraseRangeT triv b e s.2
  | .clean => s.1.cleanT triv s.2
  | .reset => s.1.resetT triv s.2

/-- Array.hpp 502-507: the destructor: the loop of `clean`. -/
def destructT (triv : Bool) (s : SVec α × Tally) : Res Tally :=
  match s.1.cleanT triv s.2 with
  | .ok r => .ok r.2
  | .ub => .ub
  | .loop => .loop

end SVec
end Flame
