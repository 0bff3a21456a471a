import Verif.Basic

/-!
# What a sequence is: specification of `HybridVector`

Plain list operations; no inline array, heap vector or capacity growth.
-/

namespace Flame.HybSpec
variable {α : Type}

/-- The calls of a history. -/
inductive Op (α : Type) where
  | pushBack (x : α)
  | popBack
  | insert (p : Nat) (x : α)
  | emplace (p : Nat) (x : α)
  | insertRange (p : Nat) (xs : List α)
  | erase (p : Nat)
  | eraseRange (b e : Nat)
  | clean
  | reset
  deriving Repr

/-- Mathematical effect of each call. -/
def apply (l : List α) : Op α → List α
  | .pushBack x => l ++ [x]
  | .popBack => l.dropLast
  | .insert p x | .emplace p x => l.take p ++ x :: l.drop p
  | .insertRange p xs => l.take p ++ xs ++ l.drop p
  | .erase p => l.take p ++ l.drop (p + 1)
  | .eraseRange b e => l.take b ++ l.drop e
  | .clean | .reset => []

/-- Caller's obligations: positions inside the sequence. -/
def valid (l : List α) : Op α → Prop
  | .insert p _ | .emplace p _ | .insertRange p _ | .erase p => p ≤ l.length
  | .eraseRange b e => b ≤ e ∧ e ≤ l.length
  | _ => True

/-- Calls for which the code keeps its promise with inline capacity `N`; excluded: insertion into an empty container,
positional insertion that has to leave the inline array other than at the front, and (element type not trivial) erasing a
range in the middle. -/
def safe (triv : Bool) (N : Nat) (l : List α) : Op α → Prop
  | .insert p _ => l ≠ [] ∧ (l.length ≠ N ∨ p = 0)
  | .emplace _ _ => l ≠ []
  | .insertRange p xs => l ≠ [] ∧ (l.length + xs.length < N ∨ N < l.length ∨ p = 0)
  | .eraseRange b e => triv = true ∨ ¬ (b < e ∧ e < l.length)
  | _ => True

def run (l : List α) : List (Op α) → List α
  | [] => l
  | o :: os => run (apply l o) os

def SafeHist (triv : Bool) (N : Nat) (l : List α) : List (Op α) → Prop
  | [] => True
  | o :: os => valid l o ∧ safe triv N l o ∧ SafeHist triv N (apply l o) os

instance (l : List α) (o : Op α) : Decidable (valid l o) := by cases o <;> unfold valid <;> infer_instance
instance (l : List α) : Decidable (l ≠ []) := match l with
  | [] => isFalse (by simp)
  | _ :: _ => isTrue (by simp)
instance (triv : Bool) (N : Nat) (l : List α) (o : Op α) : Decidable (safe triv N l o) := by
  cases o <;> unfold safe <;> infer_instance

instance decSafeHist (triv : Bool) (N : Nat) : (l : List α) → (os : List (Op α)) → Decidable (SafeHist triv N l os)
  | _, [] => isTrue trivial
  | l, o :: os =>
    have := decSafeHist triv N (apply l o) os
    inferInstanceAs (Decidable (_ ∧ _ ∧ _))

end Flame.HybSpec
