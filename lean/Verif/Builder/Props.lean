import Verif.Builder.Model

/-!
# C136: a step of a builder tells whether it succeeded
-/

namespace Flame.Builder

/-- What a step that has been carried out did: the result it left, if any, and its error. -/
structure Outcome (ρ ε : Type) where
  result : Option ρ
  error : ε

/-- `doImpl` carries the step out with outcome `o`. -/
def Yields {ρ ε : Type} (doImpl : Substep ρ ε → Substep ρ ε) (s : Substep ρ ε) (o : Outcome ρ ε) : Prop :=
  doImpl s = ⟨o.result, some o.error⟩

variable {ρ ε : Type}

/-- C136 (violated): the test of a step that has been carried out is the opposite of its success. -/
theorem C136_test_inverted [DecidableEq ε] {success : ε} {doImpl : Substep ρ ε → Substep ρ ε} {s : Substep ρ ε} {o : Outcome ρ ε}
    (h : Yields doImpl s o) : ∃ b, test success (run doImpl s) = .ok b ∧ (b = true ↔ ¬ o.error = success) := by
  refine ⟨decide (success ≠ o.error), by simp [test, run, show doImpl s = _ from h], ?_⟩
  rw [decide_eq_true_iff]
  exact ⟨fun h e => h e.symm, fun h e => h e.symm⟩

/-- C136: the result a step leaves is what `getResult` returns. -/
theorem C136_result_exact {doImpl : Substep ρ ε → Substep ρ ε} {s : Substep ρ ε} {o : Outcome ρ ε} {r : ρ}
    (h : Yields doImpl s o) (hr : o.result = some r) : getResult (run doImpl s) = .ok r := by
  simp [getResult, run, show doImpl s = _ from h, hr]

/-- C136 (violated): a step declared without braces and not carried out must not be tested, nor its result read. -/
theorem C136_fresh_ub [DecidableEq ε] (zr : ρ) (ze success : ε) : ∃ s : Substep ρ ε, make zr ze .plain = .ok s ∧ test success s = .ub ∧
    getResult s = .ub := ⟨_, rfl, rfl, rfl⟩

/-- C136 (violated): a step declared with braces claims to have succeeded exactly when zero is an error. -/
theorem C136_braces_exact [DecidableEq ε] (zr : ρ) (ze success : ε) : ∃ s : Substep ρ ε, make zr ze .braces = .ok s ∧
    getResult s = .ok zr ∧ ∃ b, test success s = .ok b ∧ (b = true ↔ ¬ ze = success) := by
  refine ⟨_, rfl, rfl, _, rfl, ?_⟩
  rw [decide_eq_true_iff]
  exact ⟨fun h e => h e.symm, fun h e => h e.symm⟩

/-- C136 (violated): no step can be constructed with arguments. -/
theorem C136_args_ub (zr : ρ) (ze : ε) : (make zr ze .args : Res (Substep ρ ε)) = .ub := rfl

-- a step that opens something: error 0 with result 3, tested with SUCCESS_VALUE 0
example : Yields (ρ := Nat) (ε := Int) (fun _ => ⟨some 3, some 0⟩) ⟨none, none⟩ ⟨some 3, 0⟩ ∧
    test (ρ := Nat) (ε := Int) 0 (run (fun _ => ⟨some 3, some 0⟩) ⟨none, none⟩) = .ok false :=
  ⟨rfl, by decide⟩

namespace Flame.Builder
example := C136_test_inverted (ρ := Nat) (ε := Int) (success := 0) (doImpl := fun _ => ⟨some 3, some 0⟩) (s := ⟨none, none⟩) (o := ⟨some 3, 0⟩) rfl
example := C136_result_exact (ρ := Nat) (ε := Int) (doImpl := fun _ => ⟨some 3, some 0⟩) (s := ⟨none, none⟩) (o := ⟨some 3, 0⟩) rfl rfl
end Flame.Builder

end Flame.Builder
