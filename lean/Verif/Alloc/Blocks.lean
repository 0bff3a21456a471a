import Verif.String.Memory

/-!
# Histories of one string over an allocator that may answer null

The operations of `Verif/String/Memory.lean` in any order; recursive ones carry the fuel they get.
-/

namespace Flame.StrMem
open Own (Ev)
variable {α : Type} [DecidableEq α] (z : α) (can : Nat → Bool)

/-- Public operations of String.hpp 104-141 that can allocate, and `clean`. -/
inductive Op (α : Type) where
  | resize (n : Nat)
  | reserve (n : Nat)
  | clean
  | pushBack (f : Nat) (c : α)
  | pushBackMove (f : Nat) (c : α)
  | pushBackRaw (f : Nat) (p : CPtr α)
  | insert (f pos : Nat) (c : α)
  | assign (f : Nat) (t : Str α)
  | assignRaw (f : Nat) (p : CPtr α)

def step (s : St α) : Op α → Res (St α)
  | .resize n => resize z can s n
  | .reserve n => reserve z can s n
  | .clean => clean z s
  | .pushBack f c => pushBack z can f s c
  | .pushBackMove f c => pushBackMove z can f s c
  | .pushBackRaw f p => pushBackRaw z can f s p
  | .insert f pos c => insert z can f s pos c
  | .assign f t => assign z can f s t
  | .assignRaw f p => assignRaw z can f s p

omit [DecidableEq α] in
/-- String.hpp 188-193. -/
def fresh : St α := ⟨Str.empty, none, 0, []⟩

end Flame.StrMem
