import Verif.Basic

/-!
# What a list is: specification of `List`

Plain list operations; no nodes, pointers or memory.
-/

namespace Flame.ListSpec
variable {α : Type}

/-- The calls of a history.  Positions are given as the number of `++` applied to `begin()`. -/
inductive Op (α : Type) where
  | pushBack (x : α)
  | pushFront (x : α)
  | insert (i : Nat) (x : α)
  | insertRange (i : Nat) (xs : List α)
  | popBack
  | popFront
  | erase (i : Nat)
  | eraseRange (i j : Nat)
  | clean
  deriving Repr

/-- Mathematical effect of each call. -/
def apply (l : List α) : Op α → List α
  | .pushBack x => l ++ [x]
  | .pushFront x => x :: l
  | .insert i x => l.take i ++ x :: l.drop i
  | .insertRange i xs => l.take i ++ (xs ++ l.drop i)
  | .popBack => l.dropLast
  | .popFront => l.tail
  | .erase i => l.take i ++ l.drop (i + 1)
  | .eraseRange i j => l.take i ++ l.drop j
  | .clean => []

/-- What a caller must respect: positions inside the sequence, no removal from an empty list. -/
def valid (l : List α) : Op α → Prop
  | .insert i _ | .insertRange i _ => i ≤ l.length
  | .popBack | .popFront => 0 < l.length
  | .erase i => i < l.length
  | .eraseRange i j => i ≤ j ∧ j ≤ l.length
  | _ => True

/-- The calls for which the code keeps its promise.  Excluded: positional calls on an empty list, removing the only
element one by one, erasing the last element by iterator, erasing the empty range at the end. -/
def safe (l : List α) : Op α → Prop
  | .insert i _ | .insertRange i _ => i ≤ l.length ∧ 0 < l.length
  | .popBack | .popFront => 2 ≤ l.length
  | .erase i => i + 1 < l.length
  | .eraseRange i j => i ≤ j ∧ j ≤ l.length ∧ i < l.length
  | _ => True

instance (l : List α) (o : Op α) : Decidable (valid l o) := by cases o <;> unfold valid <;> infer_instance
instance (l : List α) (o : Op α) : Decidable (safe l o) := by cases o <;> unfold safe <;> infer_instance

def run (l : List α) : List (Op α) → List α
  | [] => l
  | o :: os => run (apply l o) os

def ValidHist (l : List α) : List (Op α) → Prop
  | [] => True
  | o :: os => valid l o ∧ ValidHist (apply l o) os

def SafeHist (l : List α) : List (Op α) → Prop
  | [] => True
  | o :: os => safe l o ∧ SafeHist (apply l o) os

instance decSafeHist : (l : List α) → (os : List (Op α)) → Decidable (SafeHist l os)
  | _, [] => isTrue trivial
  | l, o :: os =>
    have := decSafeHist (apply l o) os
    inferInstanceAs (Decidable (_ ∧ _))

instance decValidHist : (l : List α) → (os : List (Op α)) → Decidable (ValidHist l os)
  | _, [] => isTrue trivial
  | l, o :: os =>
    have := decValidHist (apply l o) os
    inferInstanceAs (Decidable (_ ∧ _))

end Flame.ListSpec
