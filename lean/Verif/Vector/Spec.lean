import Verif.Vector.Model

/-!
# What a sequence is: specification of `Vector`

Plain list operations, no reference to storage, capacities or cells.
-/

namespace Flame.VecSpec
variable {α : Type u}
open Vec (Op)

/-- The mathematical effect of each call on a sequence. -/
def apply (l : List α) : Op α → List α
  | .pushBack x => l ++ [x]
  | .popBack => l.dropLast
  | .insert p x => l.take p ++ x :: l.drop p
  | .emplace p x => l.take p ++ x :: l.drop p
  | .insertRange p xs => l.take p ++ xs ++ l.drop p
  | .erase p => l.take p ++ l.drop (p + 1)
  | .eraseRange b e => if b ≤ e then l.take b ++ l.drop e else l
  | .reserve _ => l
  | .clean => []

/-- Caller's obligations: iterators lie inside `[begin, end]`. -/
def valid (l : List α) : Op α → Prop
  | .insert p _ | .emplace p _ | .insertRange p _ | .erase p => p ≤ l.length
  | .eraseRange b e => b ≤ l.length ∧ e ≤ l.length
  | _ => True

instance (l : List α) (o : Op α) : Decidable (valid l o) := by
  cases o <;> unfold valid <;> infer_instance

/-- The range erase that needs trivially assignable elements: a non-empty range that is not a suffix. -/
def erasesMiddle (l : List α) : Op α → Prop
  | .eraseRange b e => b < e ∧ e < l.length
  | _ => False

instance (l : List α) (o : Op α) : Decidable (erasesMiddle l o) := by
  cases o <;> unfold erasesMiddle <;> infer_instance

/-- Sequence after a history. -/
def run (l : List α) : List (Op α) → List α
  | [] => l
  | o :: os => run (apply l o) os

/-- Every call of the history meets the caller's obligations; with non-trivial elements no middle range is erased. -/
def ValidHist (triv : Bool) (l : List α) : List (Op α) → Prop
  | [] => True
  | o :: os => valid l o ∧ (triv = true ∨ ¬ erasesMiddle l o) ∧ ValidHist triv (apply l o) os

instance decValidHist (triv : Bool) : (l : List α) → (os : List (Op α)) → Decidable (ValidHist triv l os)
  | _, [] => isTrue trivial
  | l, o :: os =>
    have := decValidHist triv (apply l o) os
    inferInstanceAs (Decidable (_ ∧ _ ∧ _))

/-- Calls that can leave a capacity of exactly one: `reserve(1)` and a range insert of one element. -/
def makesUnitCapacity : Op α → Prop
  | .reserve n => n = 1
  | .insertRange _ xs => xs.length = 1
  | _ => False

instance (o : Op α) : Decidable (makesUnitCapacity o) := by
  cases o <;> unfold makesUnitCapacity <;> infer_instance

/-- Single-element erase of an element that is not the last one. -/
def erasesInner (l : List α) : Op α → Prop
  | .erase p => p + 1 < l.length
  | .eraseRange b e => b < e ∧ e < l.length
  | _ => False

instance (l : List α) (o : Op α) : Decidable (erasesInner l o) := by
  cases o <;> unfold erasesInner <;> infer_instance

/-- Calls that add elements one by one. -/
def grows : Op α → Prop
  | .pushBack _ | .insert _ _ | .emplace _ _ => True
  | _ => False

instance (o : Op α) : Decidable (grows o) := by
  cases o <;> unfold grows <;> infer_instance

/-- No inner element is erased anywhere in the history. -/
def NoInnerErase (l : List α) : List (Op α) → Prop
  | [] => True
  | o :: os => ¬ erasesInner l o ∧ NoInnerErase (apply l o) os

end Flame.VecSpec
