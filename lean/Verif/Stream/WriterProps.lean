import Verif.Stream.Writer
import Verif.Circular.Props

/-! # C47: the stream writer buffers exactly what it says it does -/

namespace Flame
open StreamWriter

namespace WriterLemmas
variable {α : Type}

theorem putLoop_ok (xs : List α) : ∀ {f : Nat} {c : CArr α} {l : List α} {n : Int}, CArr.Rep c l → xs.length < f →
    ∃ c', putLoop f c xs n = .ok (c', n + (min (c.capacity - l.length) xs.length : Nat)) ∧
      CArr.Rep c' (l ++ xs.take (c.capacity - l.length)) ∧ c'.buf.length = c.buf.length := by
  induction xs with
  | nil =>
    intro f c l n h hf
    obtain ⟨f, rfl⟩ : ∃ g, f = g + 1 := ⟨f - 1, by simp at hf; omega⟩
    refine ⟨c, ?_, by simpa using h, rfl⟩
    rw [putLoop]
    split <;> simp
  | cons x xs ih =>
    intro f c l n h hf
    obtain ⟨f, rfl⟩ : ∃ g, f = g + 1 := ⟨f - 1, by simp at hf; omega⟩
    have hlen := h.len
    rw [putLoop, CArr.size_eq h]
    by_cases hroom : l.length < c.capacity
    · rw [if_pos (by omega)]
      obtain ⟨c₁, a, b1, _, b2, _⟩ := CArr.pushBack_ok h x
      rw [if_pos hroom] at b2
      have hcap : c₁.capacity = c.capacity := by simp [CArr.capacity, b1]
      obtain ⟨c₂, r1, r2, r3⟩ := ih (f := f) (n := n + 1) b2 (by simp at hf; omega)
      simp only [a]
      refine ⟨c₂, ?_, ?_, by rw [r3, b1]⟩
      · rw [r1, hcap, List.length_append, show [x].length = 1 from rfl, List.length_cons]
        have : n + 1 + ((min (c.capacity - (l.length + 1)) xs.length : Nat) : Int) =
            n + ((min (c.capacity - l.length) (xs.length + 1) : Nat) : Int) := by omega
        rw [this]
      · rw [hcap] at r2
        obtain ⟨k, hk⟩ : ∃ k, c.capacity - l.length = k + 1 := ⟨c.capacity - l.length - 1, by omega⟩
        simp only [List.length_append, List.length_singleton] at r2
        rw [hk, List.take_succ_cons]
        rw [show c.capacity - (l.length + 1) = k by omega] at r2
        simpa using r2
    · have : l.length = c.capacity := by unfold CArr.capacity at *; omega
      rw [if_neg (by omega)]
      exact ⟨c, by simp [this], by simpa [this] using h, rfl⟩

end WriterLemmas
open WriterLemmas

/-- Specification: what the buffer of capacity `N` holds after the operations and what they return. -/
def StreamWriter.Expected {α : Type} (N : Nat) : List α → List (Op α) → List α × List Int
  | l, [] => (l, [])
  | l, .put xs :: os =>
    let r := StreamWriter.Expected N (l ++ xs.take (N - l.length)) os
    (r.1, (min (N - l.length) xs.length : Nat) :: r.2)
  | l, .flush :: os => let r := StreamWriter.Expected N l os; (r.1, 1 :: r.2)

/-- C47: on any buffer, `putData` appends the first min(free space, input size) bytes of the input and returns their number. -/
theorem C47_putData {α : Type} {c : CArr α} {l : List α} (h : CArr.Rep c l) (xs : List α) :
    ∃ c', putData c xs = .ok (c', (min (c.capacity - l.length) xs.length : Nat)) ∧
      c'.toList = .ok (l ++ xs.take (c.capacity - l.length)) ∧ c'.capacity = c.capacity := by
  obtain ⟨c', a, b, d⟩ := putLoop_ok xs (n := 0) h (Nat.lt_succ_self _)
  exact ⟨c', by simpa [putData] using a, CArr.toList_ok b, by simp [CArr.capacity, d]⟩

/-- C47: over every history of a new writer whose buffer holds `N` bytes. -/
theorem C47_history {α : Type} (N : Nat) (ops : List (Op α)) :
    ∃ c, run (CArr.empty N) ops = .ok (c, (StreamWriter.Expected N [] ops).2) ∧
      c.toList = .ok (StreamWriter.Expected N [] ops).1 := by
  suffices H : ∀ (ops : List (Op α)) (c : CArr α) (l : List α), CArr.Rep c l → c.capacity = N →
      ∃ c', run c ops = .ok (c', (StreamWriter.Expected N l ops).2) ∧ c'.toList = .ok (StreamWriter.Expected N l ops).1 from
    H ops _ _ (CArr.rep_empty N) (by simp [CArr.capacity, CArr.empty])
  intro ops
  induction ops with
  | nil => intro c l h _; exact ⟨c, rfl, CArr.toList_ok h⟩
  | cons o os ih =>
    intro c l h hN
    cases o with
    | put xs =>
      obtain ⟨c', a, b, d⟩ := putLoop_ok xs (n := 0) h (Nat.lt_succ_self _)
      obtain ⟨c'', r1, r2⟩ := ih c' _ b (by simpa [CArr.capacity, d] using hN)
      rw [hN] at a r1 r2
      refine ⟨c'', ?_, r2⟩
      simp only [run, step, putData, a, r1, StreamWriter.Expected, Int.zero_add]
    | flush =>
      obtain ⟨c'', r1, r2⟩ := ih c l h hN
      exact ⟨c'', by simp [run, step, flush, r1, StreamWriter.Expected], r2⟩

example : ∃ c, run (CArr.empty 4 : CArr Nat) [.put [1, 2, 3], .put [4, 5], .put [6]] = .ok (c, [3, 1, 0]) ∧
    c.toList = .ok [1, 2, 3, 4] := ⟨_, rfl, rfl⟩

/-- C47, a consequence: nothing ever leaves the buffer (`flush` only returns `true`), so once `N` bytes have been accepted every
further input is refused. -/
theorem C47_full_refuses {α : Type} {c : CArr α} {l : List α} (h : CArr.Rep c l) (hf : l.length = c.capacity) (xs : List α) :
    putData c xs = .ok (c, 0) ∧ flush c = .ok (c, true) := by
  refine ⟨?_, rfl⟩
  have hs := CArr.size_eq h
  simp [putData, putLoop, hs, hf]

example : ∃ c : CArr Nat, CArr.Rep c [1, 2] ∧ c.capacity = 2 := by
  obtain ⟨c, _, h1, _, h2, _⟩ := CArr.pushLoop_ok (CArr.rep_empty (α := Nat) 2) [1, 2] (by simp [CArr.empty])
  exact ⟨c, by simpa using h2, by simp [CArr.capacity, h1, CArr.empty]⟩

namespace Flame
open StreamWriter
example := (show ∃ c : CArr Nat, CArr.Rep c [1] from
  (CArr.pushBack_ok (CArr.rep_empty 2) 1).imp fun _ h => h.2.2.2.1).imp fun _ h => C47_putData h [4, 5, 6]
end Flame

end Flame
