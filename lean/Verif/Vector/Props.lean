import Verif.Vector.Lemmas
import Verif.Vector.Spec

/-!
# Properties of `Vector` (C01–C04, C55, C56)

`can` is the allocator; `∀ n, can n = true` is "allocation succeeds".  `triv` tells whether the element type is trivial.
-/

namespace Flame
open Vec VecSpec
variable {α : Type u}

/-! ## C01: sequence semantics over every history -/

/-- One call: it refines the sequence operation, unless a one-by-one growing call meets capacity = size = 1. -/
theorem C01_step {triv : Bool} {can : Nat → Bool} (hcan : ∀ n, can n = true) {v : Vec α} {l : List α} (h : Rep v l)
    (o : Op α) (hv : valid l o) (ht : triv = true ∨ ¬ erasesMiddle l o) (f : Nat) :
    (∃ v', step triv can (f + 3) v o = .ok v' ∧ Rep v' (apply l o) ∧
        (v.cap ≠ 1 → ¬ makesUnitCapacity o → v'.cap ≠ 1) ∧ (¬ erasesInner l o → NoStray v → NoStray v')) ∨
      (v.size = 1 ∧ v.cap = 1 ∧ grows o ∧ ∀ g, step triv can g v o = .loop) := by
  have hsz := h.2.1
  have hle := h.size_le_cap
  cases o with
  | pushBack x =>
    by_cases hs : v.size = 1 ∧ v.cap = 1
    · exact Or.inr ⟨hs.1, hs.2, trivial, fun g => pushBack_stuck hs.1 hs.2 x g⟩
    · obtain ⟨v', a, b, c, d⟩ := pushBack_ok hcan (f := f + 1) h hs x
      refine Or.inl ⟨v', a, b, fun h1 _ => ?_, fun _ => d⟩
      rw [c]; unfold nextCap; split
      · split <;> omega
      · exact h1
  | popBack =>
    obtain ⟨v', a, b, c, d⟩ := popBack_ok (triv := triv) h
    exact Or.inl ⟨v', a, b, fun h1 _ => by omega, fun _ => d⟩
  | insert p x =>
    by_cases hs : v.size = 1 ∧ v.cap = 1
    · refine Or.inr ⟨hs.1, hs.2, trivial, fun g => (insert_stuck hs.1 hs.2 ?_ x g).1⟩
      have : p ≤ l.length := hv
      omega
    · obtain ⟨v', a, _, b, c, d⟩ := insert_ok (triv := triv) hcan (f := f) h x (p := p) (by rw [hsz]; exact hv) hs
      refine Or.inl ⟨v', a, b, fun h1 _ => ?_, fun _ => d⟩
      rw [c]; unfold nextCap; split
      · split <;> omega
      · exact h1
  | emplace p x =>
    by_cases hs : v.size = 1 ∧ v.cap = 1
    · refine Or.inr ⟨hs.1, hs.2, trivial, fun g => (insert_stuck hs.1 hs.2 ?_ x g).2⟩
      have : p ≤ l.length := hv
      omega
    · obtain ⟨v', _, a, b, c, d⟩ := insert_ok (triv := triv) hcan (f := f) h x (p := p) (by rw [hsz]; exact hv) hs
      refine Or.inl ⟨v', a, b, fun h1 _ => ?_, fun _ => d⟩
      rw [c]; unfold nextCap; split
      · split <;> omega
      · exact h1
  | insertRange p xs =>
    obtain ⟨v', a, b, c, d⟩ := insertRange_ok (triv := triv) hcan (f := f) (xs := xs) h (p := p) (by rw [hsz]; exact hv)
    refine Or.inl ⟨v', a, b, fun h1 h2 => ?_, fun _ => d⟩
    have h2' : xs.length ≠ 1 := h2
    rw [c]; split <;> omega
  | erase p =>
    have hv' : p ≤ l.length := hv
    obtain ⟨v', a, b, c, d⟩ := erase_ok (triv := triv) h (p := p) (by rw [hsz]; exact hv)
    refine Or.inl ⟨v', a, b, fun h1 _ => by omega, fun hi => d ?_⟩
    have : ¬ p + 1 < l.length := hi
    omega
  | eraseRange b e =>
    have hv' : b ≤ l.length ∧ e ≤ l.length := hv
    by_cases hbe : b ≤ e
    · obtain ⟨v', a, r, c, d⟩ := eraseRange_ok (triv := triv) h hbe (by omega)
        (by
          rcases ht with h | h
          · exact Or.inl h
          · have : ¬ (b < e ∧ e < l.length) := h
            omega)
      refine Or.inl ⟨v', a, ?_, fun h1 _ => by omega, fun hi => d ?_⟩
      · simpa [apply, hbe] using r
      · have : ¬ (b < e ∧ e < l.length) := hi
        omega
    · refine Or.inl ⟨v, ?_, ?_, fun h1 _ => h1, fun _ h => h⟩
      · simp only [step, eraseRange]
        rw [if_neg (by omega), if_pos (by omega)]
      · simpa [apply, hbe] using h
  | reserve n =>
    refine Or.inl ⟨_, rfl, reserve_rep h n, fun h1 h2 => ?_, fun _ hn => reserve_noStray h hn n⟩
    have h2' : n ≠ 1 := h2
    rw [reserve_cap n (hcan n)]; omega
  | clean =>
    obtain ⟨v', a, b, c, d⟩ := clean_ok (triv := triv) h
    exact Or.inl ⟨v', a, b, fun h1 _ => by omega, fun _ => d⟩

/-- What an observer sees of a vector representing `l`. -/
theorem rep_observe {v : Vec α} {l : List α} (h : Rep v l) :
    v.toList = .ok l ∧ v.size = l.length ∧ v.size ≤ v.cap ∧ v.cap = v.buf.length ∧
      ∀ i (hi : i < l.length), v.at? i = .ok l[i] := by
  have hle := h.size_le_cap
  obtain ⟨h1, h2, R, h3⟩ := h
  refine ⟨?_, h2, hle, h1, ?_⟩
  · have := Cells.getRange_append (A := []) (R := R) (xs := l) (i := 0) rfl
    simp only [toList, h2, h3]; simpa using this
  · intro i hi
    simp only [at?, Cells.get, h3]
    rw [List.getElem?_append_left (by simpa using hi), List.getElem?_map, List.getElem?_eq_getElem hi]
    rfl

/-- Every valid history from any represented vector either refines the sequence specification or runs into the
capacity-one hang; it never touches illegal storage. -/
theorem C01_history_from {triv : Bool} {can : Nat → Bool} (hcan : ∀ n, can n = true) (ops : List (Op α)) {v : Vec α}
    {l : List α} (h : Rep v l) (hv : ValidHist triv l ops) (f : Nat) :
    (∃ v', runOps (step triv can (f + 3)) v ops = .ok v' ∧ Rep v' (VecSpec.run l ops)) ∨
      runOps (step triv can (f + 3)) v ops = .loop := by
  induction ops generalizing v l with
  | nil => exact Or.inl ⟨v, rfl, h⟩
  | cons o os ih =>
    obtain ⟨hv1, hv2, hv3⟩ := hv
    rcases C01_step hcan h o hv1 hv2 f with ⟨v', a, b, _⟩ | ⟨_, _, _, hl⟩
    · rw [runOps_cons_ok a]; exact ih b hv3
    · exact Or.inr (by simp [runOps, hl])

/-- **C01 (partial).**  From an empty vector, any valid history (any length, any values, allocation succeeding) that
never calls `reserve(1)` nor inserts a one-element range completes, never performs an illegal access, and leaves exactly
the elements of the mathematical sequence; `size() ≤ capacity()`, and the capacity is the allocation's real length.
Missing: histories through capacity 1 (they hang, `C01_unit_capacity_diverges`) and range erase in the middle for
non-trivial element types (undefined, `C01_eraseRange_nontrivial_ub`). -/
theorem C01_vector_history_partial {triv : Bool} {can : Nat → Bool} (hcan : ∀ n, can n = true) (ops : List (Op α))
    (hv : ValidHist triv [] ops) (hu : ∀ o ∈ ops, ¬ makesUnitCapacity o) (f : Nat) :
    ∃ v', runOps (step triv can (f + 3)) (empty : Vec α) ops = .ok v' ∧ v'.toList = .ok (VecSpec.run [] ops) ∧
      v'.size = (VecSpec.run [] ops).length ∧ v'.size ≤ v'.cap ∧ v'.cap = v'.buf.length := by
  have key : ∀ (ops : List (Op α)) (v : Vec α) (l : List α), Rep v l → v.cap ≠ 1 → ValidHist triv l ops →
      (∀ o ∈ ops, ¬ makesUnitCapacity o) →
      ∃ v', runOps (step triv can (f + 3)) v ops = .ok v' ∧ Rep v' (VecSpec.run l ops) := by
    intro ops
    induction ops with
    | nil => intro v l h _ _ _; exact ⟨v, rfl, h⟩
    | cons o os ih =>
      intro v l h hc ⟨hv1, hv2, hv3⟩ hu
      rcases C01_step hcan h o hv1 hv2 f with ⟨v', a, b, c, _⟩ | ⟨_, hc', _⟩
      · rw [runOps_cons_ok a]
        exact ih v' _ b (c hc (hu o (by simp))) hv3 (fun o' ho' => hu o' (by simp [ho']))
      · exact absurd hc' hc
  obtain ⟨v', a, b⟩ := key ops empty [] rep_empty (by simp [empty]) hv hu
  obtain ⟨o1, o2, o3, o4, _⟩ := rep_observe b
  exact ⟨v', a, o1, o2, o3, o4⟩

/-- Hypotheses met by a history that grows through a reallocation, inserts, erases and shrinks. -/
example : ValidHist false [] [Op.pushBack 1, .insert 0 2, .insertRange 1 [3, 4, 5, 6, 7, 8, 9], .erase 2, .eraseRange 5 8,
      .emplace 3 0, .popBack, .reserve 20] ∧
    VecSpec.run [] [Op.pushBack 1, .insert 0 2, .insertRange 1 [3, 4, 5, 6, 7, 8, 9], .erase 2, .eraseRange 5 8,
      .emplace 3 0, .popBack, .reserve 20] = [2, 3, 5, 0, 6] := by decide

/-- **C01 violated**: `reserve(1)`, then two appends: the second append never returns. -/
theorem C01_unit_capacity_diverges (triv : Bool) (can : Nat → Bool) (hcan : ∀ n, can n = true) (a b : α) (f : Nat) :
    runOps (step triv can (f + 1)) empty [.reserve 1, .pushBack a, .pushBack b] = .loop := by
  have h1 : step triv can (f + 1) (empty : Vec α) (.reserve 1) = .ok ⟨[.raw], 1, 0⟩ := by
    simp [step, reserve, empty, hcan]
  have h2 : step triv can (f + 1) (⟨[.raw], 1, 0⟩ : Vec α) (.pushBack a) = .ok ⟨[.live a], 1, 1⟩ := by
    simp [step, pushBack, Cells.construct]
  have h3 : step triv can (f + 1) (⟨[.live a], 1, 1⟩ : Vec α) (.pushBack b) = .loop := pushBack_stuck rfl rfl b _
  rw [runOps_cons_ok h1, runOps_cons_ok h2]
  simp [runOps, h3]

/-- **C01 violated** for non-trivial element types: erasing any non-empty range that is not a suffix and not everything
move-assigns into objects that were just destroyed. -/
theorem C01_eraseRange_nontrivial_ub {v : Vec α} {l : List α} (h : Rep v l) {b e : Nat} (hbe : b < e) (he : e < l.length)
    (can : Nat → Bool) (f : Nat) : step false can f v (.eraseRange b e) = .ub :=
  eraseRange_ub h hbe (by rw [h.2.1]; exact he)

example : ∃ v : Vec Nat, Rep v [1, 2, 3] ∧ 0 < 1 ∧ 1 < [1, 2, 3].length :=
  ⟨⟨[.live 1, .live 2, .live 3], 3, 3⟩, ⟨rfl, rfl, [], rfl⟩, by decide, by decide⟩

/-! ## C02: appending completes -/

/-- Vectors obtainable from constructors, copies and calls. -/
inductive Reach (triv : Bool) (can : Nat → Bool) : Vec α → List α → Prop where
  | empty : Reach triv can Vec.empty []
  | initList (xs : List α) {v : Vec α} : Vec.ofInitList xs = .ok v → Reach triv can v xs
  | copy {v v' : Vec α} {l : List α} : Reach triv can v l → v.copy = .ok v' → Reach triv can v' l
  | moveOut {v : Vec α} {l : List α} : Reach triv can v l → Reach triv can v.moveCtor.1 l
  | step {v v' : Vec α} {l : List α} (o : Op α) (f : Nat) : Reach triv can v l → valid l o →
      (triv = true ∨ ¬ erasesMiddle l o) → Vec.step triv can (f + 3) v o = .ok v' → Reach triv can v' (apply l o)

theorem constructRaw_ok (xs : List α) :
    Cells.constructList (List.replicate xs.length .raw) 0 xs = .ok (xs.map .live) := by
  have := Cells.constructList_append (A := []) (R := []) (C := List.replicate xs.length Cell.raw) (xs := xs) (i := 0)
    (by simp) rfl
  simpa using this

theorem copy_ok {v : Vec α} {l : List α} (h : Rep v l) : v.copy = .ok ⟨l.map .live, l.length, l.length⟩ := by
  have h1 := (rep_observe h).1
  have h2 := h.2.1
  simp only [toList, h2] at h1
  simp only [copy, h2, h1, Res.ok_bind, constructRaw_ok]

theorem reach_rep {triv : Bool} {can : Nat → Bool} (hcan : ∀ n, can n = true) {v : Vec α} {l : List α}
    (h : Reach triv can v l) : Rep v l := by
  induction h with
  | empty => exact rep_empty
  | initList xs hx =>
    simp only [ofInitList, constructRaw_ok, Res.ok_bind, Res.ok.injEq] at hx
    subst hx
    exact ⟨by simp, rfl, [], by simp⟩
  | copy _ hc ih =>
    rw [copy_ok ih] at hc
    injection hc with hc
    subst hc
    exact ⟨by simp, rfl, [], by simp⟩
  | moveOut _ ih => exact ih
  | step o f _ hv ht hs ih =>
    rcases C01_step hcan ih o hv ht f with ⟨v', a, b, _⟩ | ⟨_, _, _, hl⟩
    · rw [hs] at a; injection a with a; subst a; exact b
    · rw [hl] at hs; cases hs

/-- **C02 (partial).** On every obtainable vector an append returns with the element added at the end, *exactly when* the
vector is not of size and capacity one; in that case it never returns. -/
theorem C02_append_completes_partial {triv : Bool} {can : Nat → Bool} (hcan : ∀ n, can n = true) {v : Vec α} {l : List α}
    (h : Reach triv can v l) (x : α) :
    (¬ (v.size = 1 ∧ v.cap = 1) → ∀ f, ∃ v', v.pushBack can (f + 2) x = .ok v' ∧ v'.toList = .ok (l ++ [x]) ∧
        v'.size = v.size + 1) ∧
      ((v.size = 1 ∧ v.cap = 1) → ∀ f, v.pushBack can f x = .loop) := by
  have hr := reach_rep hcan h
  refine ⟨fun hs f => ?_, fun hs f => pushBack_stuck hs.1 hs.2 x f⟩
  obtain ⟨v', a, b, _⟩ := pushBack_ok hcan (f := f) hr hs x
  obtain ⟨o1, o2, _⟩ := rep_observe b
  exact ⟨v', a, o1, by rw [o2, hr.2.1]; simp⟩

example : ∃ v : Vec Nat, Reach false (fun _ => true) v [1, 2] ∧ ¬ (v.size = 1 ∧ v.cap = 1) :=
  ⟨⟨[.live 1, .live 2], 2, 2⟩, .initList [1, 2] rfl, by decide⟩

/-- **C02 violated**: appending to a copy (or to an initializer-list construction) of one element never returns. -/
theorem C02_append_to_copy_diverges (can : Nat → Bool) {v : Vec α} {a : α} (h : Rep v [a]) (x : α) :
    ∃ c, v.copy = .ok c ∧ ofInitList [a] = .ok c ∧ ∀ f, c.pushBack can f x = .loop :=
  ⟨_, copy_ok h, rfl, fun f => pushBack_stuck rfl rfl x f⟩

example : Rep (⟨[.live 7, .raw], 2, 1⟩ : Vec Nat) [7] := ⟨rfl, rfl, [.raw], rfl⟩

/-- **C02 violated** when memory runs out: a full vector whose growth cannot be allocated makes append recurse for ever
instead of reporting failure. -/
theorem C02_alloc_failure_diverges {can : Nat → Bool} {v : Vec α} (hfull : v.size = v.cap) (hno : can v.nextCap = false)
    (x : α) (f : Nat) : v.pushBack can f x = .loop := by
  have hr : v.reserve can v.nextCap = v := by simp [reserve, hno]
  induction f with
  | zero => rfl
  | succ f ih => rw [pushBack, if_neg (by simp [hfull]), hr]; exact ih

example : (empty : Vec Nat).size = (empty : Vec Nat).cap ∧ (fun _ : Nat => false) (empty : Vec Nat).nextCap = false := by
  decide

/-- Using a vector after it was moved from: the capacity is stale, so an append writes through a null pointer. -/
theorem C02_append_to_moved_from_ub (can : Nat → Bool) {v : Vec α} (hc : v.cap ≠ 0) (x : α) (f : Nat) :
    v.moveCtor.2.pushBack can (f + 1) x = .ub := by
  simp [moveCtor, pushBack, Ne.symm hc, Cells.construct]

example : (⟨[.live 7, .raw], 2, 1⟩ : Vec Nat).cap ≠ 0 := by decide

/-! ## C03: assignment -/

theorem assignFrom_room {triv : Bool} {can : Nat → Bool} {v : Vec α} {l xs : List α} (h : Rep v l)
    (hc : xs.length ≤ v.cap) (f : Nat) :
    (∃ v', v.assignFrom triv can (f + 1) xs = .ok v' ∧ v'.size = 0) ∨ v.assignFrom triv can (f + 1) xs = .ub := by
  obtain ⟨v', a, b, c, _⟩ := clean_ok (triv := triv) h
  simp only [assignFrom]
  rw [if_neg (by omega), a]
  simp only [Res.ok_bind]
  have hnl : ∀ (ys : List α) (b : Cells α) (i : Nat), b.assignList triv i ys ≠ .loop := by
    intro ys
    induction ys with
    | nil => intro b i; simp [Cells.assignList]
    | cons y ys ih =>
      intro b i
      simp only [Cells.assignList]
      cases h : b.assign triv i y with
      | ok b' => simpa using ih b' (i + 1)
      | ub => simp
      | loop =>
        simp only [Cells.assign] at h
        split at h
        · split at h <;> cases h
        · cases h
        · cases h
  cases hh : v'.buf.assignList triv 0 xs with
  | ok b' => exact Or.inl ⟨_, rfl, b.2.1⟩
  | ub => exact Or.inr rfl
  | loop => exact absurd hh (hnl _ _ _)

theorem assignFrom_stuck {triv : Bool} {can : Nat → Bool} {v : Vec α} {xs : List α} (hc : v.cap < xs.length)
    (hh : xs.length - v.cap ≤ v.cap) (f : Nat) : v.assignFrom triv can f xs = .loop := by
  have hr : v.reserve can (xs.length - v.cap) = v := by simp only [reserve]; rw [if_neg (by omega)]
  induction f with
  | zero => rfl
  | succ f ih => rw [assignFrom, if_pos hc, hr]; exact ih

/-- **C03 violated, in general**: whatever the target, assigning a non-empty vector never leaves the target holding the
source's elements: the call hangs, is undefined, or leaves the target with size 0. -/
theorem C03_assign_never_works {triv : Bool} {can : Nat → Bool} (hcan : ∀ n, can n = true) {v : Vec α} {l xs : List α}
    (h : Rep v l) (_hx : xs ≠ []) (f : Nat) :
    v.assignFrom triv can (f + 3) xs = .loop ∨ v.assignFrom triv can (f + 3) xs = .ub ∨
      ∃ v', v.assignFrom triv can (f + 3) xs = .ok v' ∧ v'.size = 0 ∧ v'.toList = .ok [] := by
  have fin : ∀ (w : Vec α) (g : Nat), Rep w l → xs.length ≤ w.cap →
      w.assignFrom triv can (g + 1) xs = .loop ∨ w.assignFrom triv can (g + 1) xs = .ub ∨
      ∃ v', w.assignFrom triv can (g + 1) xs = .ok v' ∧ v'.size = 0 ∧ v'.toList = .ok [] := by
    intro w g hw hc
    rcases assignFrom_room (triv := triv) (can := can) hw hc g with ⟨v', a, b⟩ | a
    · exact Or.inr (Or.inr ⟨v', a, b, by simp [toList, b, Cells.getRange]⟩)
    · exact Or.inr (Or.inl a)
  by_cases h1 : xs.length ≤ v.cap
  · exact fin v (f + 2) h h1
  by_cases h2 : xs.length - v.cap ≤ v.cap
  · exact Or.inl (assignFrom_stuck (by omega) h2 _)
  have hc := reserve_cap (can := can) (v := v) (xs.length - v.cap) (hcan _)
  by_cases h3 : v.cap = 0
  · rw [assignFrom, if_pos (by omega)]
    exact fin _ (f + 1) (reserve_rep h _) (by rw [hc]; omega)
  · refine Or.inl ?_
    rw [assignFrom, if_pos (by omega)]
    exact assignFrom_stuck (by rw [hc]; omega) (by rw [hc]; omega) _

example : Rep (empty : Vec Nat) [] ∧ [1, 2] ≠ ([] : List Nat) := ⟨rep_empty, by decide⟩

/-- **C03 (partial)**: only an empty source is assigned correctly. -/
theorem C03_assign_empty_partial {triv : Bool} {can : Nat → Bool} {v : Vec α} {l : List α} (h : Rep v l) (f : Nat) :
    ∃ v', v.assignFrom triv can (f + 1) [] = .ok v' ∧ v'.toList = .ok [] ∧ v'.size = 0 := by
  obtain ⟨v', a, b, _⟩ := clean_ok (triv := triv) h
  refine ⟨v', ?_, (rep_observe b).1, b.2.1⟩
  simp only [assignFrom, List.length_nil, Nat.not_lt_zero, if_false, a, Res.ok_bind, Cells.assignList]

example : Rep (⟨[.live 7, .raw], 2, 1⟩ : Vec Nat) [7] := ⟨rfl, rfl, [.raw], rfl⟩

/-- **C03 violated**, hang: assigning to a vector with storage anything longer than its capacity never returns. -/
theorem C03_assign_diverges {triv : Bool} {can : Nat → Bool} (hcan : ∀ n, can n = true) {v : Vec α} {xs : List α} (h0 : 0 < v.cap) (hc : v.cap < xs.length)
    (f : Nat) : v.assignFrom triv can f xs = .loop := by
  by_cases h2 : xs.length - v.cap ≤ v.cap
  · exact assignFrom_stuck hc h2 f
  · have hr := reserve_cap (can := can) (v := v) (xs.length - v.cap) (hcan _)
    cases f with
    | zero => rfl
    | succ f =>
      rw [assignFrom, if_pos hc]
      exact assignFrom_stuck (by rw [hr]; omega) (by rw [hr]; omega) f

-- a one-element target with capacity 2 assigned a three-element vector
example (f : Nat) : (⟨[.live 7, .raw], 2, 1⟩ : Vec Nat).assignFrom true (fun _ => true) f [1, 2, 3] = .loop :=
  C03_assign_diverges (fun _ => rfl) (by decide) (by decide) f

/-! ## C04: resize and sized construction -/

/-- **C04 (partial)**: `Vector(n)` has the requested size exactly for `n ≤ 1`; otherwise it has size `3n/2`.  It is full, and every
element is default constructed. -/
theorem C04_sized_ctor_partial (n : Nat) :
    (ofSize n : Vec α).size = n * 3 / 2 ∧ ((ofSize n : Vec α).size = n ↔ n ≤ 1) ∧ (ofSize n : Vec α).cap = n * 3 / 2 ∧
      (ofSize n : Vec α).buf.length = n * 3 / 2 ∧ ∀ c ∈ (ofSize n : Vec α).buf, c = .junk := by
  refine ⟨rfl, ?_, rfl, by simp [ofSize], fun c hc => (List.mem_replicate.mp hc).2⟩
  show n * 3 / 2 = n ↔ n ≤ 1
  omega

theorem fillJunk_ok {v : Vec α} {l : List α} (k n : Nat) (hl : v.buf.take l.length = l.map .live) (hs : l.length ≤ v.size)
    (hk : v.size + k ≤ v.buf.length) (hn : n = v.size + k) :
    ∃ v', v.fillJunk k = .ok v' ∧ v'.size = n ∧ v'.buf.take l.length = l.map .live ∧ v'.cap = v.cap ∧
      v'.buf.length = v.buf.length := by
  induction k generalizing v with
  | zero => exact ⟨v, rfl, by omega, hl, rfl, rfl⟩
  | succ k ih =>
    simp only [fillJunk, Cells.constructJunk]
    rw [if_pos (by omega)]
    simp only [Res.ok_bind]
    have := ih (v := { v with buf := v.buf.set v.size .junk, size := v.size + 1 })
      (by simp only; rw [List.take_set_of_le (by omega)]; exact hl) (by simp only; omega) (by simp; omega) (by simp; omega)
    obtain ⟨v', a, b, c, d, e⟩ := this
    exact ⟨v', a, b, c, d, by simpa using e⟩

/-- **C04 (partial)**: whenever `resize(n)` returns, the old elements are untouched and the size is `n`, *or* unchanged
because the capacity happened to be exactly `n` (or `n` was not larger). -/
theorem C04_resize_partial {can : Nat → Bool} {v v' : Vec α} {l : List α} (h : Rep v l) (n f : Nat)
    (hr : v.resize can f n = .ok v') :
    (∀ i (hi : i < l.length), v'.at? i = .ok l[i]) ∧
      (v'.size = n ∧ v.size < n ∨ v'.size = v.size ∧ (n ≤ v.size ∨ v'.cap = n)) := by
  induction f generalizing v with
  | zero => cases hr
  | succ f ih =>
    have hat : ∀ w : Vec α, w.buf.take l.length = l.map .live → ∀ i (hi : i < l.length), w.at? i = .ok l[i] := by
      intro w hw i hi
      have : w.buf[i]? = some (.live l[i]) := by
        have h' := congrArg (·[i]?) hw
        simp only [List.getElem?_take, if_pos hi] at h'
        rw [h', List.getElem?_map, List.getElem?_eq_getElem hi]; rfl
      simp [at?, Cells.get, this]
    have htake : v.buf.take l.length = l.map .live := by
      obtain ⟨_, _, R, h3⟩ := h
      rw [h3, show l.length = (l.map (Cell.live (α := α))).length by simp, List.take_left]
    rw [resize] at hr
    split at hr
    · rename_i h1
      split at hr
      · rename_i h2
        obtain ⟨w, a, b, c, _⟩ := fillJunk_ok (v := v) (l := l) (n - v.size) n htake (by rw [h.2.1]; omega)
          (by rw [← h.1]; omega) (by omega)
        rw [a] at hr; injection hr with hr; subst hr
        exact ⟨hat _ c, Or.inl ⟨b, h1⟩⟩
      · split at hr
        · have := ih (reserve_rep h _) hr
          rw [reserve_size] at this
          exact this
        · injection hr with hr; subst hr
          exact ⟨hat _ htake, Or.inr ⟨rfl, Or.inr (by omega)⟩⟩
    · injection hr with hr; subst hr
      exact ⟨hat _ htake, Or.inr ⟨rfl, Or.inl (by omega)⟩⟩

/-- `resize` to anything strictly inside the capacity returns with the requested size. -/
theorem C04_resize_within_capacity {can : Nat → Bool} {v : Vec α} {l : List α} (h : Rep v l) (n f : Nat)
    (h1 : l.length ≤ n) (h2 : n < v.cap) :
    ∃ v', v.resize can (f + 1) n = .ok v' ∧ v'.size = n ∧ ∀ i (hi : i < l.length), v'.at? i = .ok l[i] := by
  have htake : v.buf.take l.length = l.map .live := by
    obtain ⟨_, _, R, h3⟩ := h
    rw [h3, show l.length = (l.map (Cell.live (α := α))).length by simp, List.take_left]
  by_cases hlt : v.size < n
  · obtain ⟨w, a, b, c, _⟩ := fillJunk_ok (v := v) (l := l) (n - v.size) n htake (by rw [h.2.1]; omega)
      (by rw [← h.1]; omega) (by omega)
    have e : v.resize can (f + 1) n = .ok w := by rw [resize, if_pos hlt, if_pos h2]; exact a
    exact ⟨w, e, b, (C04_resize_partial h n (f + 1) e).1⟩
  · have e : v.resize can (f + 1) n = .ok v := by rw [resize, if_neg hlt]
    have := h.2.1
    exact ⟨v, e, by omega, (C04_resize_partial h n (f + 1) e).1⟩

example : Rep (⟨[.live 7, .raw, .raw], 3, 1⟩ : Vec Nat) [7] ∧ [7].length ≤ 2 ∧ 2 < 3 :=
  ⟨⟨rfl, rfl, [.raw, .raw], rfl⟩, by decide, by decide⟩

/-- The capacities a vector of capacity `c` grows through: the next one is half as large again, or 8. -/
def grown : Nat → Nat → Nat
  | c, 0 => c
  | c, k + 1 => grown (if c = 0 then 8 else c * 3 / 2) k

theorem grown_ge : ∀ (k c : Nat), c ≤ grown c k
  | 0, _ => Nat.le_refl _
  | k + 1, c => by
    have := grown_ge k (if c = 0 then 8 else c * 3 / 2)
    show c ≤ grown (if c = 0 then 8 else c * 3 / 2) k
    split at this <;> rename_i h <;> simp only [h, if_true, if_false] <;> omega

/-- **C04, exactly**: `resize(n)` of a vector whose capacity is not 1, to more elements than it has, returns (given memory) and keeps the old elements; the size is
`n` if and only if `n` is none of the capacities the vector grows through; if it is one of them, the vector gets that capacity and no element. -/
theorem C04_resize_exact {can : Nat → Bool} (hcan : ∀ n, can n = true) {v : Vec α} {l : List α} (h : Rep v l) (hc : v.cap ≠ 1) {n : Nat}
    (hn : l.length < n) (f : Nat) :
    ∃ v', v.resize can (n + 1 + (f + 1)) n = .ok v' ∧ (∀ i (hi : i < l.length), v'.at? i = .ok l[i]) ∧
      (v'.size = n ↔ ∀ k, grown v.cap k ≠ n) ∧ (v'.size ≠ n → v'.size = l.length ∧ v'.cap = n) := by
  have key : ∀ (d : Nat) {v : Vec α}, Rep v l → v.cap ≠ 1 → n + 1 ≤ v.cap + d →
      ∃ v', v.resize can (d + (f + 1)) n = .ok v' ∧ (v'.size = n ↔ ∀ k, grown v.cap k ≠ n) ∧
        (v'.size ≠ n → v'.size = l.length ∧ v'.cap = n) := by
    intro d
    induction d with
    | zero =>
      intro v h _ hd
      obtain ⟨v', e, hs, _⟩ := C04_resize_within_capacity (can := can) h n f (by omega) (by omega)
      refine ⟨v', by rw [Nat.zero_add]; exact e, ⟨fun _ k e => ?_, fun _ => hs⟩, fun hh => absurd hs hh⟩
      have := grown_ge k v.cap
      omega
    | succ d ih =>
      intro v h hc hd
      have hsz : v.size < n := by rw [h.2.1]; exact hn
      by_cases h1 : n < v.cap
      · obtain ⟨v', e, hs, _⟩ := C04_resize_within_capacity (can := can) h n (d + (f + 1)) (by omega) h1
        refine ⟨v', by rw [Nat.add_right_comm]; exact e, ⟨fun _ k e => ?_, fun _ => hs⟩, fun hh => absurd hs hh⟩
        have := grown_ge k v.cap
        omega
      · by_cases h2 : v.cap < n
        · have hg := nextCap_gt hc
          have hcap : (v.reserve can v.nextCap).cap = v.nextCap := by rw [reserve_cap _ (hcan _)]; omega
          obtain ⟨v', e, hs, hu⟩ := ih (reserve_rep (can := can) h v.nextCap) (by rw [hcap]; unfold nextCap; split <;> omega) (by rw [hcap]; omega)
          refine ⟨v', ?_, ?_, hu⟩
          · rw [Nat.add_right_comm, resize, if_pos hsz, if_neg h1, if_pos h2]; exact e
          · rw [hs, hcap]
            have hnx : v.nextCap = if v.cap = 0 then 8 else v.cap * 3 / 2 := by
              unfold nextCap; by_cases hz : v.cap = 0 <;> simp [hz]
            rw [hnx]
            constructor
            · intro hh k
              cases k with
              | zero => show v.cap ≠ n; omega
              | succ k => exact hh k
            · intro hh k; exact hh (k + 1)
        · have hcn : v.cap = n := by omega
          refine ⟨v, by rw [Nat.add_right_comm, resize, if_pos hsz, if_neg h1, if_neg h2], ⟨fun hh => by omega, fun hh => absurd hcn (hh 0)⟩,
            fun _ => ⟨h.2.1, hcn⟩⟩
  obtain ⟨v', e, h1, h2⟩ := key (n + 1) h hc (by omega)
  exact ⟨v', e, (C04_resize_partial h n _ e).1, h1, h2⟩

-- an empty vector grows through 8, 12, 18, ...: `resize(12)` leaves it empty, `resize(11)` does not
example : Rep (empty : Vec Nat) [] ∧ (empty : Vec Nat).cap ≠ 1 ∧ grown 0 2 = 12 := ⟨rep_empty, by decide, by decide⟩
example : (match (empty : Vec Nat).resize (fun _ => true) 14 12, (empty : Vec Nat).resize (fun _ => true) 14 11 with
    | .ok a, .ok b => a.size == 0 && b.size == 11
    | _, _ => false) = true := by decide +kernel

/-- **C04 violated**: `resize` to exactly the capacity does nothing (e.g. `reserve(8); resize(8)` leaves size 0). -/
theorem C04_resize_to_capacity_violated (can : Nat → Bool) {v : Vec α} (h : v.size < v.cap) (f : Nat) :
    v.resize can (f + 1) v.cap = .ok v := by
  rw [resize, if_pos h, if_neg (by omega), if_neg (by omega)]

example : ((empty : Vec Nat).reserve (fun _ => true) 8).size < ((empty : Vec Nat).reserve (fun _ => true) 8).cap := by decide

/-- **C04 violated**: resizing a vector of capacity one (e.g. a copy of a one-element vector) to more never returns. -/
theorem C04_resize_unit_capacity_diverges (can : Nat → Bool) {v : Vec α} (hc : v.cap = 1) (hs : v.size ≤ 1) {n : Nat}
    (hn : 1 < n) (f : Nat) : v.resize can f n = .loop := by
  induction f with
  | zero => rfl
  | succ f ih => rw [resize, if_pos (by omega), if_neg (by omega), if_pos (by omega), reserve_fixed hc]; exact ih

example : (⟨[.live 7], 1, 1⟩ : Vec Nat).cap = 1 ∧ (⟨[.live 7], 1, 1⟩ : Vec Nat).size ≤ 1 ∧ 1 < 2 := by decide

/-! ## C55: arguments referring to the vector's own elements -/

/-- **C55 (partial)**: appending a copy of the vector's own element works as long as there is spare capacity. -/
theorem C55_push_own_partial (can : Nat → Bool) {v : Vec α} {l : List α} (h : Rep v l) (hr : v.size < v.cap) {i : Nat}
    (hi : i < l.length) (f : Nat) :
    ∃ v', v.pushBackOwn can f i = .ok v' ∧ v'.toList = .ok (l ++ [l[i]]) := by
  have hat := (rep_observe h).2.2.2.2 i hi
  obtain ⟨v', a, b, _⟩ := pushBack_room (can := can) (f := f) h (by omega) l[i]
  refine ⟨v', ?_, (rep_observe b).1⟩
  rw [pushBackOwn, if_pos (by omega)]
  simp only [at?] at hat
  rw [hat]
  exact a

example : Rep (⟨[.live 7, .raw], 2, 1⟩ : Vec Nat) [7] ∧ 1 < 2 ∧ 0 < [7].length :=
  ⟨⟨rfl, rfl, [.raw], rfl⟩, by decide, by decide⟩

/-- **C55 violated**: `v.pushBack(v[i])` on a full vector reads the old, freed storage. -/
theorem C55_push_own_full_ub {can : Nat → Bool} (hcan : ∀ n, can n = true) {v : Vec α} (hf : v.size = v.cap)
    (h1 : v.cap ≠ 1) (i f : Nat) : v.pushBackOwn can f i = .ub := by
  rw [pushBackOwn, if_neg (by omega), if_pos ⟨nextCap_gt h1, hcan _⟩]

example : (⟨[.live 7, .live 8], 2, 2⟩ : Vec Nat).size = (⟨[.live 7, .live 8], 2, 2⟩ : Vec Nat).cap ∧
    (⟨[.live 7, .live 8], 2, 2⟩ : Vec Nat).cap ≠ 1 := by decide

/-! ## C56: every element is destroyed -/

/-- **C56 (partial)**: after a history without erasing inner elements, destroying the vector leaves no object alive in the
freed allocation.  Objects constructed over (inner `emplace`) are not seen here: they are counted in `Verif/Vector/TallyProps.lean`. -/
theorem C56_no_leak_partial {triv : Bool} {can : Nat → Bool} (hcan : ∀ n, can n = true) (ops : List (Op α))
    (hv : ValidHist triv [] ops) (hi : NoInnerErase [] ops) {v : Vec α} {f : Nat}
    (hr : runOps (step triv can (f + 3)) (empty : Vec α) ops = .ok v) : v.leakedAtDestruction triv = .ok 0 := by
  have key : ∀ (ops : List (Op α)) (w : Vec α) (l : List α), Rep w l → NoStray w → ValidHist triv l ops →
      NoInnerErase l ops → runOps (step triv can (f + 3)) w ops = .ok v → ∃ l', Rep v l' ∧ NoStray v := by
    intro ops
    induction ops with
    | nil => intro w l h hn _ _ hr; simp only [runOps, Res.ok.injEq] at hr; subst hr; exact ⟨l, h, hn⟩
    | cons o os ih =>
      intro w l h hn ⟨hv1, hv2, hv3⟩ ⟨hi1, hi2⟩ hr
      rcases C01_step hcan h o hv1 hv2 f with ⟨v', a, b, _, d⟩ | ⟨_, _, _, hl⟩
      · rw [runOps_cons_ok a] at hr
        exact ih v' _ b (d hi1 hn) hv3 hi2 hr
      · simp [runOps, hl] at hr
  obtain ⟨l, h, hn⟩ := key ops empty [] rep_empty (by simp [NoStray, empty]) hv hi hr
  obtain ⟨v', a, b, _, d⟩ := clean_ok (triv := triv) h
  have hn' := d hn
  rw [leakedAtDestruction, a]
  simp only [Res.ok.injEq, List.countP_eq_zero]
  intro c hc
  have : c = .raw := hn' c (by rw [b.2.1]; simpa using hc)
  subst this; simp [Cell.isLive]

example : NoInnerErase [] [Op.pushBack 1, .insert 0 2, .erase 1] ∧ ValidHist false [] [Op.pushBack 1, .insert 0 2, .erase 1] := by
  refine ⟨⟨id, id, by decide, trivial⟩, by decide⟩

theorem leaked_ok {v : Vec α} {l : List α} (h : Rep v l) {triv : Bool} :
    v.leakedAtDestruction triv = .ok ((v.buf.drop l.length).countP Cell.isLive) := by
  obtain ⟨h1, h2, R, h3⟩ := h
  have e := Cells.destroyRange_append (A := []) (R := R) (M := l.map .live) (i := 0) triv
    (Or.inr (live_map_ne l)) rfl
  simp only [List.nil_append, List.length_map] at e
  have hc : v.clean triv = .ok ⟨List.replicate l.length .raw ++ R, v.cap, 0⟩ := by
    rw [clean, h3, h2, e]; rfl
  rw [leakedAtDestruction, hc, h3]
  simp only [Res.ok.injEq, List.countP_append]
  rw [List.countP_eq_zero.mpr (by intro c hc; rw [List.mem_replicate] at hc; rw [hc.2]; simp [Cell.isLive]), Nat.zero_add]
  congr 1
  rw [List.drop_left' (by simp)]

/-- **C56 violated**: erasing any inner element of any vector leaves exactly one more object that is never destroyed. -/
theorem C56_erase_leaks {v : Vec α} {l : List α} (h : Rep v l) {p k : Nat} (hp : p + 1 < l.length)
    (hk : v.leakedAtDestruction false = .ok k) :
    ∃ v', v.erase false p = .ok v' ∧ v'.toList = .ok (l.take p ++ l.drop (p + 1)) ∧ v'.leakedAtDestruction false = .ok (k + 1) := by
  have h' := h
  obtain ⟨h1, h2, R, h3⟩ := h
  have hlt : p < l.length := by omega
  obtain ⟨C', e1, e2, e3⟩ := Cells.shiftDown_append (A := (l.take p).map .live) (C := [Cell.live l[p]]) (R := R)
    (M := l.drop (p + 1)) (src := p + 1) (dst := p) false (by simp) (by simp) (by simp; omega) (by simp; omega)
  have hb : v.buf = (l.take p).map .live ++ ([Cell.live l[p]] ++ ((l.drop (p + 1)).map .live ++ R)) := by
    rw [h3]
    have : l = l.take p ++ (l[p] :: l.drop (p + 1)) := by simp
    conv => lhs; rw [this]
    simp only [List.map_append, List.map_cons, List.append_assoc, List.cons_append]
    simp
  have hrep : Rep (⟨(l.take p ++ l.drop (p + 1)).map .live ++ (C' ++ R), v.cap, v.size - 1⟩ : Vec α) (l.take p ++ l.drop (p + 1)) := by
    refine ⟨?_, by simp; omega, _, rfl⟩
    simp only [List.length_singleton] at e1
    simp only; rw [h1, hb]; simp; omega
  refine ⟨_, ?_, (rep_observe hrep).1, ?_⟩
  · rw [erase, if_neg (by omega), if_neg (by omega), if_neg (by omega), hb]
    rw [List.length_drop, ← h2] at e3
    rw [e3]
    simp
  · rw [leaked_ok hrep]
    rw [leaked_ok h', h3, List.drop_left' (by simp)] at hk
    simp only [Res.ok.injEq] at hk ⊢
    rw [List.drop_left' (by simp), List.countP_append, hk]
    match C', e1 with
    | [c], _ =>
      have : c.isLive = true := by
        rcases e2 c (by simp) with rfl | hc
        · rfl
        · rw [List.mem_singleton] at hc; subst hc; rfl
      simp [this]; omega

example : Rep (⟨[.live 1, .live 2, .live 3, .junk, .raw], 5, 3⟩ : Vec Nat) [1, 2, 3] ∧
    (⟨[.live 1, .live 2, .live 3, .junk, .raw], 5, 3⟩ : Vec Nat).leakedAtDestruction false = .ok 1 ∧
    ((⟨[.live 1, .live 2, .live 3, .junk, .raw], 5, 3⟩ : Vec Nat).erase false 1 >>= (·.leakedAtDestruction false)) = .ok 2 := by
  exact ⟨⟨rfl, rfl, [.junk, .raw], rfl⟩, rfl, rfl⟩

namespace Flame
open Vec VecSpec
example := C01_step (triv := false) (can := fun _ => true) (fun _ => rfl) (v := (⟨[.live 7, .raw], 2, 1⟩ : Vec Nat)) (l := [7]) ⟨rfl, rfl, [.raw], rfl⟩
  (.insert 0 9) (by decide) (by decide) 0
example := C01_history_from (triv := false) (can := fun _ => true) (fun _ => rfl) [Op.insert 0 9, .pushBack 3, .erase 1]
  (v := (⟨[.live 7, .raw], 2, 1⟩ : Vec Nat)) (l := [7]) ⟨rfl, rfl, [.raw], rfl⟩ (by decide) 0
example := C01_unit_capacity_diverges true (fun _ => true) (fun _ => rfl) 4 5 20
example := C04_resize_partial (can := fun _ => true) (v := (⟨[.live 7, .raw], 2, 1⟩ : Vec Nat)) (l := [7]) ⟨rfl, rfl, [.raw], rfl⟩ 5 9 rfl
end Flame

end Flame
