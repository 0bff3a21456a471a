import Verif.Basic

/-!
# What a string is: specification of `BasicString`

Texts are lists of characters; no storage, no capacity, no terminator.
-/

namespace Flame.StrSpec
variable {α : Type}

/-- The calls of a history.  A C string argument is the text before its terminator together with whatever memory follows. -/
inductive Op (α : Type) where
  | append (ys rest : List α)
  | appendNull
  | assign (ys rest : List α)
  | popBack
  | erase (i : Nat)
  | eraseRange (i j : Nat)
  | insert (i : Nat) (c : α)
  | clean
  | copySelf
  deriving Repr

/-- Mathematical effect of each call. -/
def apply (l : List α) : Op α → List α
  | .append ys _ => l ++ ys
  | .appendNull => l
  | .assign ys _ => ys
  | .popBack => l.dropLast
  | .erase i => l.take i ++ l.drop (i + 1)
  | .eraseRange i j => l.take i ++ l.drop j
  | .insert i c => l.take i ++ c :: l.drop i
  | .clean => []
  | .copySelf => l

/-- What a caller must respect: positions inside the text, C strings end at their first terminator. -/
def valid (z : α) (l : List α) : Op α → Prop
  | .append ys _ | .assign ys _ => ∀ c ∈ ys, c ≠ z
  | .erase i => i ≤ l.length
  | .eraseRange i j => i ≤ j ∧ j ≤ l.length
  | .insert i c => i ≤ l.length ∧ c ≠ z
  | _ => True

instance [DecidableEq α] (z : α) (l : List α) (o : Op α) : Decidable (valid z l o) := by
  cases o <;> unfold valid <;> infer_instance

def run (l : List α) : List (Op α) → List α
  | [] => l
  | o :: os => run (apply l o) os

def ValidHist (z : α) (l : List α) : List (Op α) → Prop
  | [] => True
  | o :: os => valid z l o ∧ ValidHist z (apply l o) os

instance decValidHist [DecidableEq α] (z : α) : (l : List α) → (os : List (Op α)) → Decidable (ValidHist z l os)
  | _, [] => isTrue trivial
  | l, o :: os =>
    have := decValidHist z (apply l o) os
    inferInstanceAs (Decidable (_ ∧ _))

end Flame.StrSpec
