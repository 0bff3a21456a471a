import Verif.Hybrid.Props
import Verif.Vector.OwnProps
import Verif.Array.OwnProps

/-!
# `HybridVector` with arguments that refer to its own elements (C140)
-/

namespace Flame
open HVec HybSpec
variable {α : Type}

namespace HVec

/-- HybridVector.hpp 1666-1694 with `object` referring to element `i`.  A full array is destroyed by `useVector` (2041-2047) before
`object` is read; reading it then is `ub`.  An unset container has no elements. -/
def pushBackOwn (can : Nat → Bool) (f : Nat) (h : HVec α) (i : Nat) : Res (HVec α) :=
  match h with
  | .unset => .ub
  | .arr s =>
    if s.cap > s.size then do
      let s ← s.pushBackOwn i
      .ok (.arr s)
    else do
      let _ ← toVector can f s
      .ub
  | .vec v => do
    let v ← v.pushBackOwn can f i
    .ok (.vec v)

/-- HybridVector.hpp 1773-1807 with `object` referring to element `i`.  Vector branch: Vector.hpp 745-773, where a full vector reallocates
before `object` is read (`ub`) or, when that fails, repeats itself for ever. -/
def insertOwn (triv keep : Bool) (can : Nat → Bool) (f : Nat) (h : HVec α) (pos i : Nat) : Res (HVec α) :=
  match h with
  | .unset => .ub
  | .arr s =>
    if s.cap > s.size then do
      let s ← s.insertOwn triv keep pos i
      .ok (.arr s)
    else do
      let _ ← toVector can f s
      .ub
  | .vec v =>
    if v.size < v.cap then do
      let v ← if pos = v.size then v.pushBackOwn can f i else v.insertOwn triv keep pos i
      .ok (.vec v)
    else if v.cap < v.nextCap ∧ can v.nextCap then .ub
    else .loop

/-- HybridVector.hpp 1845-1892 with `[itBegin, itEnd)` the elements from `b` up to `e` (`b < e`): the iterators dangle once the array
has been destroyed. -/
def insertRangeOwn (triv keep : Bool) (can : Nat → Bool) (f : Nat) (h : HVec α) (pos b e : Nat) : Res (HVec α) :=
  match h with
  | .unset => .ub
  | .arr s =>
    if e - b < s.cap - s.size then do
      let s ← s.insertRangeOwn triv keep pos b e
      .ok (.arr s)
    else do
      let _ ← toVector can f s
      .ub
  | .vec v => do
    let v ← v.insertRangeOwn triv keep can f pos b e
    .ok (.vec v)

/-- There is space left in the storage in use. -/
def room (n : Nat) : HVec α → Prop
  | .unset => False
  | .arr s => s.size + n ≤ s.cap
  | .vec v => v.size + n ≤ v.cap

instance (n : Nat) (h : HVec α) : Decidable (room n h) := by cases h <;> unfold room <;> infer_instance

end HVec

/-! ## C140 -/

/-- Appending one of the container's own elements works exactly as long as the storage in use has a slot left; otherwise the element is
read after it was destroyed. -/
theorem C140_push_exact {can : Nat → Bool} (hcan : ∀ n, can n = true) {N : Nat} {h : HVec α} {l : List α} (hr : HRep N h l) {i : Nat}
    (hi : i < l.length) (f : Nat) :
    (room 1 h → ∃ h', pushBackOwn can (f + 1) h i = .ok h' ∧ h'.toList = .ok (l ++ [l[i]])) ∧
    (¬ room 1 h → pushBackOwn can (f + 1) h i = .ub) := by
  cases h with
  | unset => have : l = [] := hr; subst this; simp at hi
  | arr s =>
    have hz := hr.1.size_eq
    constructor
    · intro hm
      simp only [room] at hm
      obtain ⟨s', a, b⟩ := (SVec.C137_append_own hr.1).1 i hi
      rw [if_pos (by omega)] at b
      exact ⟨.arr s', by rw [pushBackOwn, if_pos (by omega), a]; rfl, b⟩
    · intro hm
      simp only [room] at hm
      obtain ⟨v, a, _⟩ := toVector_ok hcan hr.1 f
      rw [pushBackOwn, if_neg (by omega), a]; rfl
  | vec v =>
    have hz := hr.1.2.1
    have h2 := hr.2
    constructor
    · intro hm
      simp only [room] at hm
      obtain ⟨v', a, b⟩ := C55_push_own_partial can hr.1 (by omega) hi (f + 1)
      exact ⟨.vec v', by rw [pushBackOwn, a]; rfl, b⟩
    · intro hm
      simp only [room] at hm
      obtain ⟨R, h3⟩ := hr.1.2.2
      have hle : v.size ≤ v.cap := by have := hr.1.1; rw [h3] at this; simp at this; omega
      rw [pushBackOwn, C55_push_own_full_ub hcan (by omega) (by omega)]; rfl

/-- Inserting one of the container's own elements before position `p`: correct for elements before `p` (for `p` itself only when moving
keeps values), the element before the named one otherwise, and a read of a destroyed element without a slot left. -/
theorem C140_insert_exact {triv keep : Bool} {can : Nat → Bool} (hcan : ∀ n, can n = true) {N : Nat} {h : HVec α} {l : List α}
    (hr : HRep N h l) {p i : Nat} (hp : p ≤ l.length) (hi : i < l.length) (f : Nat) :
    (room 1 h → i < p ∨ i = p ∧ keep = true → ∃ h', insertOwn triv keep can (f + 1) h p i = .ok h' ∧
      h'.toList = .ok (l.take p ++ l[i] :: l.drop p)) ∧
    (room 1 h → i = p ∧ keep = false → insertOwn triv keep can (f + 1) h p i = .ub) ∧
    (room 1 h → p < i → ∃ h', insertOwn triv keep can (f + 1) h p i = .ok h' ∧ h'.toList = .ok (l.take p ++ l[i - 1] :: l.drop p)) ∧
    (¬ room 1 h → insertOwn triv keep can (f + 1) h p i = .ub) := by
  cases h with
  | unset => have : l = [] := hr; subst this; simp at hi
  | arr s =>
    have hz := hr.1.size_eq
    simp only [room]
    refine ⟨fun hm hc => ?_, fun hm hc => ?_, fun hm hc => ?_, fun hm => ?_⟩
    · obtain ⟨s', _, a, _, b, _⟩ := (SVec.C137_insert_own (triv := triv) (keep := keep) hr.1 (by omega) hp hi).1 hc
      exact ⟨.arr s', by rw [insertOwn, if_pos (by omega), a]; rfl, b⟩
    · have a := (SVec.C137_insert_own (triv := triv) (keep := keep) hr.1 (by omega) hp hi).2.1 hc
      rw [insertOwn, if_pos (by omega), a.1]; rfl
    · obtain ⟨s', _, a, _, b, _⟩ := (SVec.C137_insert_own (triv := triv) (keep := keep) hr.1 (by omega) hp hi).2.2 hc
      exact ⟨.arr s', by rw [insertOwn, if_pos (by omega), a]; rfl, b⟩
    · obtain ⟨v, a, _⟩ := toVector_ok hcan hr.1 f
      rw [insertOwn, if_neg (by omega), a]; rfl
  | vec v =>
    have hz := hr.1.2.1
    have h2 := hr.2
    simp only [room]
    refine ⟨fun hm hc => ?_, fun hm hc => ?_, fun hm hc => ?_, fun hm => ?_⟩
    · by_cases hpe : p = l.length
      · obtain ⟨v', a, b⟩ := C55_push_own_partial can hr.1 (by omega) hi (f + 1)
        refine ⟨.vec v', by rw [insertOwn, if_pos (by omega), if_pos (by omega), a]; rfl, ?_⟩
        subst hpe
        simpa [HVec.toList] using b
      · obtain ⟨v', _, a, _, b, _⟩ := (Vec.C55_insert_own (triv := triv) (keep := keep) hr.1 (by omega) (p := p) (by omega) hi).1 hc
        exact ⟨.vec v', by rw [insertOwn, if_pos (by omega), if_neg (by omega), a]; rfl, b⟩
    · have a := (Vec.C55_insert_own (triv := triv) (keep := keep) hr.1 (by omega) (p := p) (by omega) hi).2.1 hc
      rw [insertOwn, if_pos (by omega), if_neg (by omega), a.1]; rfl
    · obtain ⟨v', _, a, _, b, _⟩ := (Vec.C55_insert_own (triv := triv) (keep := keep) hr.1 (by omega) (p := p) (by omega) hi).2.2 hc
      exact ⟨.vec v', by rw [insertOwn, if_pos (by omega), if_neg (by omega), a]; rfl, b⟩
    · rw [insertOwn, if_neg (by omega), if_pos ⟨Vec.nextCap_gt (by omega), hcan _⟩]

/-- Inserting a range of the container's own elements: an inline array that the range would exactly fill, or overfill, is destroyed before
the range is read.  Otherwise the range arrives intact when it lies before the position (or the position is the end, or the start of the
range and moving keeps values); a range around the position repeats its part before it; a range behind the position arrives shifted. -/
theorem C140_range_exact {triv keep : Bool} {can : Nat → Bool} (hcan : ∀ n, can n = true) {N : Nat} {h : HVec α} {l : List α}
    (hr : HRep N h l) {p b e : Nat} (hp : p ≤ l.length) (hbe : b < e) (he : e ≤ l.length) (f : Nat) :
    (room (e - b) h → (∀ s, h = .arr s → l.length + (e - b) < N) → (p = l.length ∨ e ≤ p ∨ p = b ∧ keep = true) →
      ∃ h', insertRangeOwn triv keep can (f + 1) h p b e = .ok h' ∧ h'.toList = .ok (l.take p ++ (l.drop b).take (e - b) ++ l.drop p)) ∧
    (room (e - b) h → (∀ s, h = .arr s → l.length + (e - b) < N) → p < l.length → b < p →
      ∃ h' xs, insertRangeOwn triv keep can (f + 1) h p b e = .ok h' ∧ h'.toList = .ok (l.take p ++ xs ++ l.drop p) ∧
        xs.length = e - b ∧ ∀ k, k < e - b → xs[k]? = l[b + k % (p - b)]?) ∧
    (room (e - b) h → (∀ s, h = .arr s → l.length + (e - b) < N) → p ≤ b → keep = true ∨ p + (e - b) ≤ b →
      ∃ h' xs, insertRangeOwn triv keep can (f + 1) h p b e = .ok h' ∧ h'.toList = .ok (l.take p ++ xs ++ l.drop p) ∧
        xs.length = e - b ∧ ∀ k, k < e - b → xs[k]? = if b + k < p + (e - b) then l[b + k]? else l[b + k - (e - b)]?) ∧
    (room (e - b) h → (∀ s, h = .arr s → l.length + (e - b) < N) → p ≤ b → b < p + (e - b) → keep = false →
      insertRangeOwn triv keep can (f + 1) h p b e = .ub) ∧
    (¬ room (e - b) h ∨ (∃ s, h = .arr s ∧ N ≤ l.length + (e - b)) → insertRangeOwn triv keep can (f + 1) h p b e = .ub) := by
  cases h with
  | unset => have : l = [] := hr; subst this; simp at he; omega
  | arr s =>
    have hz := hr.1.size_eq
    have hN := hr.2
    simp only [room, HVec.arr.injEq, forall_eq', exists_eq_left']
    refine ⟨fun hm hl hc => ?_, fun hm hl hpl hbp => ?_, fun hm hl hpb hk => ?_, fun hm hl hpb hbn hk => ?_, fun hm => ?_⟩
    · obtain ⟨s', a, b'⟩ := ((SVec.C137_insertRange_own (triv := triv) (keep := keep) hr.1 hp hbe he).2 (by omega)).1 hc
      exact ⟨.arr s', by rw [insertRangeOwn, if_pos (by omega), a]; rfl, b'⟩
    · obtain ⟨s', xs, a, b', c⟩ := ((SVec.C137_insertRange_own (triv := triv) (keep := keep) hr.1 hp hbe he).2 (by omega)).2.1 hpl hbp
      exact ⟨.arr s', xs, by rw [insertRangeOwn, if_pos (by omega), a]; rfl, b', c⟩
    · obtain ⟨s', xs, a, b', c⟩ := ((SVec.C137_insertRange_own (triv := triv) (keep := keep) hr.1 hp hbe he).2 (by omega)).2.2.1 hpb hk
      exact ⟨.arr s', xs, by rw [insertRangeOwn, if_pos (by omega), a]; rfl, b', c⟩
    · have a := ((SVec.C137_insertRange_own (triv := triv) (keep := keep) hr.1 hp hbe he).2 (by omega)).2.2.2 hpb hbn hk
      rw [insertRangeOwn, if_pos (by omega), a]; rfl
    · obtain ⟨v, a, _⟩ := toVector_ok hcan hr.1 f
      rw [insertRangeOwn, if_neg (by omega), a]; rfl
  | vec v =>
    have hz := hr.1.2.1
    simp only [room, reduceCtorEq, false_implies, implies_true, true_implies, false_and, exists_false, or_false]
    refine ⟨fun hm hc => ?_, fun hm hpl hbp => ?_, fun hm hpb hk => ?_, fun hm hpb hbn hk => ?_, fun hm => ?_⟩
    · obtain ⟨v', a, b'⟩ := (Vec.C55_insertRange_own (triv := triv) (keep := keep) (can := can) (f := f) hr.1 (by omega) hp hbe he).1 hc
      exact ⟨.vec v', by rw [insertRangeOwn, a]; rfl, b'⟩
    · obtain ⟨v', xs, a, b', c⟩ :=
        (Vec.C55_insertRange_own (triv := triv) (keep := keep) (can := can) (f := f) hr.1 (by omega) hp hbe he).2.1 hpl hbp
      exact ⟨.vec v', xs, by rw [insertRangeOwn, a]; rfl, b', c⟩
    · obtain ⟨v', xs, a, b', c⟩ :=
        (Vec.C55_insertRange_own (triv := triv) (keep := keep) (can := can) (f := f) hr.1 (by omega) hp hbe he).2.2.1 hpb hk
      exact ⟨.vec v', xs, by rw [insertRangeOwn, a]; rfl, b', c⟩
    · have a := (Vec.C55_insertRange_own (triv := triv) (keep := keep) (can := can) (f := f) hr.1 (by omega) hp hbe he).2.2.2 hpb hbn hk
      rw [insertRangeOwn, a]; rfl
    · rw [insertRangeOwn, (Vec.C55_insertRange_own_full_ub (by omega) hbe).1 (hcan _)]; rfl

/-- **C140, violated.** Fill the inline array with any elements, then append, insert or range-insert its own elements: they are read after
the array was destroyed. -/
theorem C140_violated (triv keep : Bool) (can : Nat → Bool) (hcan : ∀ n, can n = true) (f : Nat) (xs : List α) (p i : Nat)
    (hp : p ≤ xs.length) (hi : i < xs.length) :
    ∃ h, runOps (HVec.step triv can xs.length (f + 3)) (.unset : HVec α) (xs.map Op.pushBack) = .ok h ∧ h.toList = .ok xs ∧
      pushBackOwn can (f + 3) h i = .ub ∧ insertOwn triv keep can (f + 3) h p i = .ub ∧
      insertRangeOwn triv keep can (f + 3) h p i (i + 1) = .ub := by
  obtain ⟨s, a, b, c⟩ := push_stays_inline triv can xs.length (f + 3) xs (by rintro rfl; simp at hi) (Nat.le_refl _)
  have hr : HRep xs.length (.arr s) xs := ⟨b, c⟩
  have hz := b.size_eq
  have hn : ¬ room 1 (.arr s) := by simp only [room]; omega
  refine ⟨.arr s, a, SVec.rep_toList b, (C140_push_exact hcan hr hi (f + 2)).2 hn, (C140_insert_exact hcan hr hp hi (f + 2)).2.2.2 hn,
    (C140_range_exact hcan hr hp (by omega) (by omega) (f + 2)).2.2.2.2 (Or.inr ⟨s, rfl, by omega⟩)⟩

example : ∃ xs : List Nat, 1 ≤ xs.length ∧ 0 < xs.length := ⟨[7, 8], by decide, by decide⟩

/-- A container with a slot left. -/
example : HRep 3 (.arr ⟨[.live 7, .live 8, .raw], 2⟩ : HVec Nat) [7, 8] ∧ room 1 (.arr ⟨[.live 7, .live 8, .raw], 2⟩ : HVec Nat) ∧
    HRep 2 (.vec ⟨[.live 7, .live 8, .live 9, .raw], 4, 3⟩ : HVec Nat) [7, 8, 9] ∧
    room 1 (.vec ⟨[.live 7, .live 8, .live 9, .raw], 4, 3⟩ : HVec Nat) :=
  ⟨⟨⟨rfl, rfl, [.raw], rfl⟩, rfl⟩, by decide, ⟨⟨rfl, rfl, [.raw], rfl⟩, by decide⟩, by decide⟩

/-- The repeated pattern of an own range around the position, and the exact fill. -/
example : insertRangeOwn false true (fun _ => true) 5 (.vec ⟨[.live 1, .live 2, .live 3, .raw, .raw, .raw], 6, 3⟩ : HVec Nat) 1 0 3 =
    .ok (.vec ⟨[.live 1, .live 1, .live 1, .live 1, .live 2, .live 3], 6, 6⟩) ∧
    insertRangeOwn false true (fun _ => true) 5 (.arr ⟨[.live 1, .raw], 1⟩ : HVec Nat) 1 0 1 = .ub := by decide

namespace Flame
open HVec HybSpec
private theorem roomy : HRep 4 (.arr ⟨[.live 7, .live 8, .raw, .raw], 2⟩ : HVec Nat) [7, 8] := ⟨⟨rfl, rfl, [.raw, .raw], rfl⟩, rfl⟩
example := C140_push_exact (can := fun _ => true) (fun _ => rfl) roomy (i := 1) (by decide) 4
example := C140_insert_exact (triv := true) (keep := false) (can := fun _ => true) (fun _ => rfl) roomy (p := 0) (i := 1) (by decide) (by decide) 4
example := C140_range_exact (triv := true) (keep := false) (can := fun _ => true) (fun _ => rfl) roomy (p := 1) (b := 0) (e := 2) (by decide) (by decide)
  (by decide) 4
end Flame

end Flame
