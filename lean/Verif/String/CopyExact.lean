import Verif.String.Props

/-!
# C18 and C20, exactly: when string assignment and concatenation are right
-/

namespace Flame
open Str StrSpec
variable {α : Type} [DecidableEq α] {z : α}

/-- **C18, exactly.**  Assigning one string to another gives the target the source's text exactly if the source is empty and the target has storage; assigning a string to itself keeps its text
exactly if it is empty and has storage. -/
theorem C18_assign_exact {s t : Str α} {l k : List α} (hs : Rep z s l) (ht : Rep z t k) (f : Nat) :
    ((∃ s', assign z (f + 2) s t = .ok s' ∧ chars s' = .ok k) ↔ k = [] ∧ s.cap ≠ 0) ∧
    ((∃ s', assignSelf z s = .ok s' ∧ chars s' = .ok l) ↔ l = [] ∧ s.cap ≠ 0) := by
  have h0 : ∀ s' : Str α, s'.len = 0 → chars s' = .ok [] := by
    intro s' h
    unfold Str.chars
    rw [h]; rfl
  rcases hs with hs | ⟨rfl, rfl⟩
  · have hc := hs.cap_ne
    refine ⟨?_, ?_⟩
    · simp only [hc, ne_eq, not_false_eq_true, and_true]
      rcases Nat.lt_trichotomy k.length s.cap with hk | hk | hk
      · obtain ⟨s', a, b, _⟩ := assign_room hs ht hk (f + 1)
        constructor
        · rintro ⟨u, e, hu⟩
          rw [a] at e
          cases e
          rw [h0 s' b] at hu
          cases hu; rfl
        · rintro rfl
          exact ⟨s', a, h0 s' b⟩
      · rw [C18_terminator_ub s t l k hs ht hk (f + 1)]
        constructor
        · rintro ⟨_, e, _⟩; cases e
        · rintro rfl; exact absurd hk.symm hc
      · obtain ⟨s', a, b, _⟩ := C18_grow_violated s t l k hs ht hk f
        constructor
        · rintro ⟨u, e, hu⟩
          rw [a] at e
          cases e
          rw [h0 s' b] at hu
          cases hu; rfl
        · rintro rfl
          simp at hk
    · simp only [hc, ne_eq, not_false_eq_true, and_true]
      obtain ⟨s', a, b⟩ := C18_self_violated s l hs
      constructor
      · rintro ⟨u, e, hu⟩
        rw [a] at e
        cases e
        rw [b.chars] at hu
        cases hu; rfl
      · rintro rfl
        exact ⟨s', a, b.chars⟩
  · refine ⟨?_, ?_⟩
    · rw [C18_default_target_ub t k ht f]
      constructor
      · rintro ⟨_, e, _⟩; cases e
      · rintro ⟨_, h⟩; exact absurd rfl h
    · have hu : assignSelf z (Str.empty : Str α) = .ub := by
        simp [assignSelf, Str.empty, clean, Raw.rdRange, Raw.wrList, Raw.wr]
      rw [hu]
      constructor
      · rintro ⟨_, e, _⟩; cases e
      · rintro ⟨_, h⟩; exact absurd rfl h

/-- **C20, exactly.**  Adding a string to a string or to a C string, and appending one, give both texts exactly if the right one is empty. -/
theorem C20_concat_exact {s t : Str α} {l k m : List α} {p : CPtr α} (hs : Rep z s l) (ht : Rep z t k) (hp : Src z p m) :
    ((∃ r, concat z s t = .ok r ∧ chars r = .ok (l ++ k)) ↔ k = []) ∧
    ((∃ r, rawConcat z p t = .ok r ∧ chars r = .ok (m ++ k)) ↔ k = []) ∧
    (chars (appendStr s t) = .ok (l ++ k) ↔ k = []) := by
  obtain ⟨r, a, b, _⟩ := copy_ok hs
  obtain ⟨r2, a2, b2, _⟩ := ofRaw_ok hp
  have e1 : concat z s t = .ok r := by simp [concat, a, appendStr]
  have e2 : rawConcat z p t = .ok r2 := by simp [rawConcat, a2, appendStr]
  refine ⟨?_, ?_, ?_⟩
  · rw [e1]
    constructor
    · rintro ⟨u, e, hu⟩
      cases e
      rw [b.chars] at hu
      simpa using hu
    · rintro rfl
      exact ⟨r, rfl, by simpa using b.chars⟩
  · rw [e2]
    constructor
    · rintro ⟨u, e, hu⟩
      cases e
      rw [b2.chars] at hu
      simpa using hu
    · rintro rfl
      exact ⟨r2, rfl, by simpa using b2.chars⟩
  · simp only [appendStr, hs.chars]
    constructor
    · intro hu; simpa using hu
    · rintro rfl; simp

example : Rep 0 (⟨[some 5, some 0], 2, 1⟩ : Str Nat) [5] ∧ Rep 0 (Str.empty : Str Nat) [] ∧ Src 0 (some [7, 0]) [7] := by
  refine ⟨Or.inl ⟨rfl, rfl, by decide, ?_⟩, Or.inr ⟨rfl, rfl⟩, Or.inl ⟨by decide, [], rfl⟩⟩
  intro i hi
  have : i = 0 ∨ i = 1 := by simp at hi; omega
  rcases this with rfl | rfl <;> rfl

namespace Flame
open Str StrSpec
example := C18_assign_exact (z := 0) (s := (⟨[some 5, some 0], 2, 1⟩ : Str Nat)) (l := [5]) (t := Str.empty) (k := [])
  (Or.inl ⟨rfl, rfl, by decide, by
    intro i hi
    have : i = 0 ∨ i = 1 := by simp at hi; omega
    rcases this with rfl | rfl <;> rfl⟩) (Or.inr ⟨rfl, rfl⟩) 4
end Flame

end Flame
