import Verif.Utils.TypeList

/-!
# C105-C107, C110: type lists and tuples
-/

namespace Flame.TypeList

variable {T V : Type} [DecidableEq T]

/-! ## C105: positions -/

/-- C105: the index of a type is that of its first occurrence, and −1 exactly for types that do not occur. -/
theorem C105_index (t : T) (as : List T) :
    (t ∉ as ∧ indexOfType t as = -1) ∨
    (∃ i : Nat, indexOfType t as = i ∧ as[i]? = some t ∧ ∀ j, j < i → as[j]? ≠ some t) := by
  induction as with
  | nil => left; simp [indexOfType]
  | cons a as ih =>
    by_cases h : t = a
    · right; exact ⟨0, by simp [indexOfType, h], by simp [h], by omega⟩
    · rcases ih with ⟨h1, h2⟩ | ⟨i, h1, h2, h3⟩
      · left; exact ⟨by simp [h, h1], by simp [indexOfType, h, h2]⟩
      · right
        refine ⟨i + 1, ?_, by simpa using h2, ?_⟩
        · have : ¬ (i : Int) < 0 := by omega
          simp only [indexOfType, h, if_false, h1, this]
          omega
        · intro j hj
          cases j with
          | zero => simpa using fun e => h e.symm
          | succ j => simpa using h3 j (by omega)

/-- C105: picking by the index of a type gives the type back. -/
theorem C105_index_pick {t : T} {as : List T} (h : t ∈ as) :
    ∃ i : Nat, indexOfType t as = i ∧ typeByIndex i as = .val (.type t) := by
  induction as with
  | nil => simp at h
  | cons a as ih =>
    by_cases ha : t = a
    · exact ⟨0, by simp [indexOfType, ha], by simp [typeByIndex, ha]⟩
    · have hm : t ∈ as := by
        rcases List.mem_cons.1 h with h' | h'
        · exact absurd h' ha
        · exact h'
      obtain ⟨i, h1, h2⟩ := ih hm
      refine ⟨i + 1, ?_, by simpa [typeByIndex] using h2⟩
      have : ¬ (i : Int) < 0 := by omega
      simp only [indexOfType, ha, if_false, h1, this]
      omega

/-- C110: an index inside the pack picks that type. -/
theorem C110_pick_partial {i : Nat} {as : List T} {t : T} (h : as[i]? = some t) : typeByIndex i as = .val (.type t) := by
  induction as generalizing i with
  | nil => simp at h
  | cons a as ih =>
    cases i with
    | zero => simp at h; simp [typeByIndex, h]
    | succ i => simp at h; simpa [typeByIndex] using ih h

/-- C110 fails for the index just behind the last type: the result is `void` instead of an error. -/
theorem C110_pick_end_violated (as : List T) : typeByIndex as.length as = .val .void := by
  induction as with
  | nil => rfl
  | cons a as ih => simpa [typeByIndex] using ih

/-- C110: all greater indices do not compile. -/
theorem C110_pick_error {i : Nat} {as : List T} (h : as.length < i) : typeByIndex i as = .error := by
  induction as generalizing i with
  | nil =>
    obtain ⟨k, rfl⟩ : ∃ k, i = k + 1 := ⟨i - 1, by simp at h; omega⟩
    rfl
  | cons a as ih =>
    obtain ⟨k, rfl⟩ : ∃ k, i = k + 1 := ⟨i - 1, by simp at h; omega⟩
    simpa [typeByIndex] using ih (by simp at h; omega)

/-- C105: membership in a pack that is not empty. -/
theorem C105_in_pack {t : T} {as : List T} (h : as ≠ []) : inPack t as = .val (decide (t ∈ as)) := by
  induction as with
  | nil => exact absurd rfl h
  | cons a as ih =>
    cases as with
    | nil => simp [inPack]
    | cons b as =>
      have := ih (by simp)
      simp only [inPack, this, Ct.val.injEq]
      rw [Bool.eq_iff_iff]
      simp

/-! ## C106: uniqueness -/

theorem isUnique_three (a b c : T) (as : List T) :
    isUnique (a :: b :: c :: as) = match isUnique (b :: c :: as) with
      | .val u => .val (decide (a ∈ b :: c :: as) || u)
      | .error => .error := by
  have h := C105_in_pack (t := a) (as := b :: c :: as) (by simp)
  rw [isUnique.eq_def]
  simp only [h]
  cases isUnique (b :: c :: as) <;> simp

theorem isUnique_two (a b : T) : isUnique [a, b] = .val (decide (a ≠ b)) := by
  simp [isUnique, inPack]

theorem isUnique_total (a b : T) (as : List T) : ∃ u, isUnique (a :: b :: as) = .val u := by
  induction as generalizing a b with
  | nil => exact ⟨_, isUnique_two a b⟩
  | cons c as ih =>
    obtain ⟨u, hu⟩ := ih b c
    exact ⟨_, by rw [isUnique_three, hu]⟩

/-- C106: packs without repetition are accepted. -/
theorem C106_distinct_partial {as : List T} (h : as.Nodup) (hl : as.length ≠ 1) : isUnique as = .val true := by
  induction as with
  | nil => rfl
  | cons a as ih =>
    cases as with
    | nil => simp at hl
    | cons b as =>
      cases as with
      | nil =>
        simp only [List.nodup_cons, List.mem_singleton] at h
        simp [isUnique_two, h.1]
      | cons c as =>
        rw [isUnique_three, ih (List.nodup_cons.1 h).2 (by simp)]
        simp

/-- C106: what is rejected does contain a repetition. -/
theorem C106_rejected_partial {as : List T} (h : isUnique as = .val false) : ¬ as.Nodup := by
  intro hn
  by_cases hl : as.length = 1
  · match as, hl with
    | [a], _ => simp [isUnique, inPack] at h
  · rw [C106_distinct_partial hn hl] at h
    simp at h

/-- C106: two types are compared correctly. -/
theorem C106_two (a b : T) : isUnique [a, b] = .val (decide (a ≠ b)) := isUnique_two a b

/-- C106 fails for every pack of three or more types whose first type occurs again: it is accepted. -/
theorem C106_repeated_violated {a b c : T} {as : List T} (h : a ∈ b :: c :: as) :
    isUnique (a :: b :: c :: as) = .val true ∧ ¬ (a :: b :: c :: as).Nodup := by
  obtain ⟨u, hu⟩ := isUnique_total b c as
  refine ⟨?_, fun hn => (List.nodup_cons.1 hn).1 h⟩
  rw [isUnique_three, hu]
  simp only [decide_eq_true h, Bool.true_or]

/-- C106: exactly the packs are rejected whose only repetition is that of the last two types: all types before them are different from
everything behind. -/
theorem C106_exact (as : List T) (a b : T) :
    isUnique (as ++ [a, b]) = .val false ↔ a = b ∧ (as ++ [b]).Nodup := by
  induction as with
  | nil => simp [isUnique_two]
  | cons x as ih =>
    obtain ⟨p, q, r, e⟩ : ∃ p q r, as ++ [a, b] = p :: q :: r := by
      match as with
      | [] => exact ⟨a, b, [], rfl⟩
      | [y] => exact ⟨y, a, [b], rfl⟩
      | y :: z :: ws => exact ⟨y, z, ws ++ [a, b], rfl⟩
    obtain ⟨u, hu⟩ := isUnique_total p q r
    rw [e, hu] at ih
    simp only [List.cons_append, e]
    rw [isUnique_three, hu, ← e]
    simp only [Ct.val.injEq, Bool.or_eq_false_iff, decide_eq_false_iff_not, List.nodup_cons] at ih ⊢
    rw [ih]
    constructor
    · rintro ⟨h1, rfl, h3⟩
      refine ⟨rfl, ?_, h3⟩
      simp at h1 ⊢
      exact h1
    · rintro ⟨rfl, h2, h3⟩
      refine ⟨?_, rfl, h3⟩
      simp at h2 ⊢
      exact h2

/-- C106: a single type does not compile. -/
theorem C106_single_violated (a : T) : isUnique [a] = .error := by simp [isUnique, inPack]

/-! ## C107: tuples -/

/-- C107: a tuple returns the values it was made of, at their positions; other positions do not compile. -/
theorem C107_get_partial (vs : List V) (i : Nat) : (Tup.make vs).get i = match vs[i]? with
    | some v => .val v
    | none => .error := by
  induction vs generalizing i with
  | nil => simp [Tup.make, Tup.get]
  | cons v vs ih => cases i with
    | zero => simp [Tup.make, Tup.get]
    | succ i => simpa [Tup.make, Tup.get] using ih i

/-- C107: assigning through `get<i>()` changes the member `i` only. -/
theorem C107_put {t : Tup V} {i : Nat} {v w : V} (h : t.get i = .val v) :
    ∃ t', t.put i w = .val t' ∧ t'.get i = .val w ∧ ∀ j, j ≠ i → t'.get j = t.get j := by
  induction t generalizing i with
  | nil => simp [Tup.get] at h
  | cons u p ih =>
    cases i with
    | zero =>
      refine ⟨.cons w p, rfl, rfl, ?_⟩
      intro j hj
      cases j with
      | zero => exact absurd rfl hj
      | succ j => rfl
    | succ i =>
      simp only [Tup.get] at h
      obtain ⟨q, h1, h2, h3⟩ := ih h
      refine ⟨.cons u q, by simp [Tup.put, h1], by simpa [Tup.get] using h2, ?_⟩
      intro j hj
      cases j with
      | zero => rfl
      | succ j => simpa [Tup.get] using h3 j (by omega)

/-- C107: construction from rvalues moves every argument exactly once into its position. -/
theorem C107_move (move : V → V × V) (vs : List V) :
    Tup.makeMove move vs = (Tup.make (vs.map (fun v => (move v).1)), vs.map (fun v => (move v).2)) := by
  induction vs with
  | nil => rfl
  | cons v vs ih => simp [Tup.makeMove, ih, Tup.make]

/-- C107 fails for const tuples: every member but the first is inaccessible. -/
theorem C107_const_violated {vs : List V} {i : Nat} (hi : i < vs.length) (h0 : i ≠ 0) :
    (Tup.make vs).getConst i = .error ∧ ∃ v, (Tup.make vs).get i = .val v := by
  refine ⟨?_, vs[i], ?_⟩
  · obtain ⟨k, rfl⟩ : ∃ k, i = k + 1 := ⟨i - 1, by omega⟩
    cases Tup.make vs <;> rfl
  · rw [C107_get_partial, List.getElem?_eq_getElem hi]

/-- C107: the first member of a const tuple. -/
theorem C107_const_first (v : V) (vs : List V) : (Tup.make (v :: vs)).getConst 0 = .val v := rfl

/-! ## Examples -/

example : indexOfType 'c' ['a', 'b', 'c', 'c'] = 2 ∧ indexOfType 'x' ['a', 'b'] = -1 := by decide
example : typeByIndex 1 ['a', 'b'] = .val (.type 'b') ∧ typeByIndex 2 ['a', 'b'] = .val .void ∧ typeByIndex 3 ['a', 'b'] = .error := by decide
example : isUnique ['a', 'a', 'b'] = .val true ∧ isUnique ['a', 'b', 'b'] = .val false ∧ isUnique ['a', 'b', 'c'] = .val true := by decide
example : (Tup.make [1, 2, 3]).get 1 = .val 2 ∧ (Tup.make [1, 2, 3]).getConst 1 = .error := by decide
example : Tup.makeMove (fun v => (v, 0)) [1, 2] = (Tup.make [1, 2], [0, 0]) := rfl

/-! The theorems at concrete packs. -/

example := C105_index_pick (t := 'c') (as := ['a', 'b', 'c', 'c']) (by decide)
example := C110_pick_partial (i := 1) (as := ['a', 'b']) (t := 'b') rfl
example := C110_pick_error (i := 3) (as := ['a', 'b']) (by decide)
example := C105_in_pack (t := 'b') (as := ['a', 'b']) (by decide)
example := C106_distinct_partial (as := ['a', 'b', 'c']) (by decide) (by decide)
example := C106_rejected_partial (as := ['a', 'b', 'b']) (by decide)
example := C106_repeated_violated (a := 'a') (b := 'b') (c := 'a') (as := []) (by decide)
example := C107_put (t := Tup.make [1, 2, 3]) (i := 1) (v := 2) (w := 9) (by decide)
example := C107_const_violated (vs := [1, 2, 3]) (i := 2) (by decide) (by decide)

end Flame.TypeList
