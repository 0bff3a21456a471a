import Verif.Stream.SplitProps

/-! # C68: which circular transfers report what they moved, exactly -/

namespace Flame
open Split

/-- **C68, reading, exactly.**  For every answer of the system: the number returned is the number of bytes taken from the file precisely if neither call of
the system failed and the range does not end where the buffer begins. -/
theorem C68_read_report_exact {α : Type} {data mem : List α} {b e : Nat} (hb : b < mem.length) (he : e ≤ mem.length) (ret₀ ret₁ : Option Nat) :
    ∃ c rest mem', readCircular ret₀ ret₁ data mem b e = .ok (c, rest, mem') ∧ rest <:+ data ∧ mem'.length = mem.length ∧
      (c + rest.length = data.length ↔ ret₀ ≠ none ∧ ret₁ ≠ none ∧ 0 < e) := by
  cases ret₀ with
  | none => exact ⟨-2, data, mem, C68_read_failed_violated hb ret₁, List.suffix_refl _, rfl, by simp; omega⟩
  | some k =>
    cases ret₁ with
    | none =>
      refine ⟨_, _, _, C68_read_second_violated hb he, List.drop_suffix _ _, by simp; omega, ?_⟩
      simp only [List.length_drop, ne_eq, not_true_eq_false, false_and, and_false, iff_false]
      omega
    | some k₁ =>
      by_cases h0 : 0 < e
      · simp only [readCircular, C46_split hb, Res.ok_bind]
        rw [C68_read_linear_exact (Nat.le_refl _)]
        simp only [Res.ok_bind, hb, if_true]
        rw [if_pos (by omega), show ((0 : Int) = ((0 : Nat) : Int)) from rfl, C68_read_linear_exact (by simp; omega)]
        simp only [Res.ok_bind, h0, if_true]
        rw [if_neg (by omega)]
        refine ⟨_, _, _, rfl, List.IsSuffix.trans (List.drop_suffix _ _) (List.drop_suffix _ _), by simp; omega, ?_⟩
        simp only [List.length_drop, ne_eq, reduceCtorEq, not_false_eq_true, and_self, iff_true]
        omega
      · have h0' : e = 0 := by omega
        subst h0'
        simp only [readCircular, C46_split hb, Res.ok_bind]
        rw [C68_read_linear_exact (Nat.le_refl _)]
        simp only [Res.ok_bind, hb, if_true]
        rw [if_pos (by omega), show ((0 : Int) = ((0 : Nat) : Int)) from rfl, C68_read_linear_exact (by simp)]
        simp only [Res.ok_bind, Nat.lt_irrefl, if_false]
        rw [if_pos (by omega)]
        refine ⟨_, _, _, rfl, List.drop_suffix _ _, by simp; omega, ?_⟩
        simp only [List.length_drop, and_false, iff_false]
        omega

/-- **C68, writing, exactly**: the same, counting the bytes the file gained. -/
theorem C68_write_report_exact {α : Type} {file mem : List α} {b e : Nat} (hb : b < mem.length) (he : e ≤ mem.length) (ret₀ ret₁ : Option Nat) :
    ∃ c file', writeCircular ret₀ ret₁ file mem b e = .ok (c, file') ∧ file <+: file' ∧
      (file.length + c = file'.length ↔ ret₀ ≠ none ∧ (ret₁ ≠ none ∧ 0 < e)) := by
  cases ret₀ with
  | none => exact ⟨-2, file, C68_write_failed_violated hb ret₁, List.prefix_refl _, by simp; omega⟩
  | some k =>
    by_cases h0 : 0 < e
    · cases ret₁ with
      | none =>
        refine ⟨_, _, C68_write_second_violated hb h0 he, List.prefix_append _ _, ?_⟩
        simp only [List.length_append, List.length_take, List.length_drop, ne_eq, not_true_eq_false, false_and, and_false, iff_false]
        omega
      | some k₁ =>
        simp only [writeCircular, C46_split hb, Res.ok_bind]
        rw [C68_write_linear_exact (Nat.le_refl _)]
        simp only [Res.ok_bind, hb, if_true]
        rw [if_pos ⟨by omega, by omega⟩, show ((0 : Int) = ((0 : Nat) : Int)) from rfl, C68_write_linear_exact he]
        simp only [Res.ok_bind, h0, if_true]
        rw [if_neg (by omega)]
        refine ⟨_, _, rfl, by rw [List.append_assoc]; exact List.prefix_append _ _, ?_⟩
        simp only [List.length_append, List.length_take, List.length_drop, ne_eq, reduceCtorEq, not_false_eq_true, and_self, iff_true]
        omega
    · have h0' : e = 0 := by omega
      subst h0'
      refine ⟨_, _, C68_write_end_violated hb ret₁, List.prefix_append _ _, ?_⟩
      simp only [List.length_append, List.length_take, List.length_drop, Nat.lt_irrefl, and_false, iff_false]
      omega

example : 2 < [0, 0, 0, 0].length ∧ 1 ≤ [0, 0, 0, 0].length ∧
    readCircular (some 9) (some 9) [1, 2, 3, 4] [0, 0, 0, 0] 2 1 = .ok (3, [4], [3, 0, 1, 2]) ∧
    writeCircular (some 9) (some 9) [7] [1, 2, 3, 4] 2 1 = .ok (3, [7, 3, 4, 1]) := by decide

namespace Flame
open Split
example := C68_read_report_exact (data := [1, 2, 3, 4]) (mem := [0, 0, 0, 0]) (b := 2) (e := 1) (by decide) (by decide) (some 9) none
end Flame

end Flame
