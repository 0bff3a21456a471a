import Verif.Life.ObjectProps

/-!
# C144 for `Object`: an `Object` tests true exactly if it holds a value
-/

namespace Flame
open Own Life.Object
variable {V : Type} {al : Nat → Nat}

/-- **C144**, for `Object` (Object.hpp 183-187): in every reachable state an `Object` tests true exactly if it holds a value, and then its value can be read as what it
is. -/
theorem C144_object_exact {s : St V} (hr : Reach (step al) (safe al) init s) {i : Nat} {o : Option (Nat × V)} (hc : contents s i = some o) :
    full s i = o.isSome ∧ (full s i = true → ∃ t s' v, o = some (t, v) ∧ Life.Object.get al s i t = .ok (s', v)) := by
  have hf : full s i = o.isSome := by
    have hi : s.vars i ≠ none := by intro e; simp [contents, e] at hc
    obtain ⟨x, hx⟩ := ne_none hi
    rcases cases_var (Life.Object.reach_inv hr) hx with ⟨h1, _, h2⟩ | ⟨c, t, h1, _, _, _, _, _, _, h2⟩
    · rw [h2, Option.some.injEq] at hc
      subst hc
      simp [full, hx, h1]
    · rw [h2, Option.some.injEq] at hc
      subst hc
      simp [full, hx, h1]
  refine ⟨hf, fun h => ?_⟩
  rw [hf] at h
  cases o with
  | none => simp at h
  | some p =>
    obtain ⟨t, v⟩ := p
    obtain ⟨s', hs⟩ := (C35_get_exact hr hc).1 rfl
    exact ⟨t, s', v, rfl, hs⟩

example := C144_object_exact (al := fun _ => 4) (V := Nat)
  (.visit ([.ctor 0 64 1 7, .declare 1 68, .moveAssign 1 0] : List (Life.Object.Op Nat)) (by decide +kernel)) (i := 1) (o := some (1, 7)) rfl
end Flame
