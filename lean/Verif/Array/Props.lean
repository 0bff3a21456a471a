import Verif.Array.Lemmas

/-!
# Properties of `Array` (C05–C08, C57, C58)

The specification (`ArrSpec`) is a list together with the fixed capacity `n`: additions that do not fit are ignored.
-/

namespace Flame
open SVec
variable {α : Type u}

namespace ArrSpec

/-- Effect of each call on a list bounded by `n`. -/
def apply (n : Nat) (l : List α) : Op α → List α
  | .pushBack x => if l.length < n then l ++ [x] else l
  | .popBack => l.dropLast
  | .insert p x => if l.length < n then l.take p ++ x :: l.drop p else l
  | .emplace p x => if l.length < n then l.take p ++ x :: l.drop p else l
  | .insertRange p xs => if xs.length + l.length ≤ n then l.take p ++ xs ++ l.drop p else l
  | .appendRange xs => l ++ xs.take (n - l.length)
  | .erase p => l.take p ++ l.drop (p + 1)
  | .eraseRange b e => if b ≤ e then l.take b ++ l.drop e else l
  | .clean => []
  | .reset => []

/-- Caller's obligations: iterators inside `[begin, end]`. -/
def valid (l : List α) : Op α → Prop
  | .insert p _ | .emplace p _ | .insertRange p _ | .erase p => p ≤ l.length
  | .eraseRange b e => b ≤ l.length ∧ e ≤ l.length
  | _ => True

instance (l : List α) (o : Op α) : Decidable (valid l o) := by
  cases o <;> unfold valid <;> infer_instance

/-- Erasing a non-empty range that is neither everything nor a suffix. -/
def erasesMiddle (l : List α) : Op α → Prop
  | .eraseRange b e => b < e ∧ e < l.length
  | _ => False

instance (l : List α) (o : Op α) : Decidable (erasesMiddle l o) := by
  cases o <;> unfold erasesMiddle <;> infer_instance

/-- Contents after a history. -/
def run (n : Nat) (l : List α) : List (Op α) → List α
  | [] => l
  | o :: os => run n (apply n l o) os

/-- Histories meeting the caller's obligations; non-trivial elements: no middle range erase. -/
def ValidHist (triv : Bool) (n : Nat) (l : List α) : List (Op α) → Prop
  | [] => True
  | o :: os => valid l o ∧ (triv = true ∨ ¬ erasesMiddle l o) ∧ ValidHist triv n (apply n l o) os

instance decValidHist (triv : Bool) (n : Nat) : (l : List α) → (os : List (Op α)) → Decidable (ValidHist triv n l os)
  | _, [] => isTrue trivial
  | l, o :: os =>
    have := decValidHist triv n (apply n l o) os
    inferInstanceAs (Decidable (_ ∧ _ ∧ _))

end ArrSpec
open ArrSpec

/-! ## C05 -/

/-- One call refines the bounded-list operation. -/
theorem C05_step {triv : Bool} {s : SVec α} {l : List α} (h : Rep s l) (o : Op α) (hv : valid l o)
    (ht : triv = true ∨ ¬ erasesMiddle l o) :
    ∃ s', step triv s o = .ok s' ∧ Rep s' (apply s.cap l o) ∧ s'.cap = s.cap := by
  cases o with
  | pushBack x => exact pushBack_ok h x
  | popBack => exact popBack_ok h
  | insert p x => obtain ⟨s', a, _, b, c⟩ := insert_ok (triv := triv) h hv x; exact ⟨s', a, b, c⟩
  | emplace p x => obtain ⟨s', _, a, b, c⟩ := insert_ok (triv := triv) h hv x; exact ⟨s', a, b, c⟩
  | insertRange p xs => exact insertRange_ok h hv xs
  | appendRange xs => exact pushBackList_ok h xs
  | erase p => exact erase_ok h hv
  | eraseRange b e => exact eraseRange_ok h hv.1 hv.2 ht
  | clean => exact clean_ok h
  | reset =>
    obtain ⟨s', a, b, c⟩ := clean_ok (triv := triv) h
    refine ⟨⟨List.replicate s'.buf.length .raw, s'.size⟩, ?_, ?_, ?_⟩
    · simp only [step, SVec.reset, a, Res.ok_bind]
    · exact ⟨rfl, b.2.1, _, rfl⟩
    · simpa [cap] using c

/-- **C05 (partial).**  Any history of calls on an empty `Array<T, n, false>` completes without touching anything but its
own storage and leaves exactly the contents of a list bounded by `n`; the size never exceeds `n`.
Missing for non-trivial element types: range erase in the middle (`C05_eraseRange_nontrivial_ub`). -/
theorem C05_static_vector_history_partial (triv : Bool) (n : Nat) (ops : List (Op α)) (hv : ValidHist triv n [] ops) :
    ∃ s', runOps (step triv) (SVec.empty n : SVec α) ops = .ok s' ∧ s'.toList = .ok (ArrSpec.run n [] ops) ∧
      s'.size = (ArrSpec.run n [] ops).length ∧ s'.size ≤ n ∧ s'.buf.length = n := by
  have key : ∀ (ops : List (Op α)) (s : SVec α) (l : List α), Rep s l → s.cap = n → ValidHist triv n l ops →
      ∃ s', runOps (step triv) s ops = .ok s' ∧ Rep s' (ArrSpec.run n l ops) ∧ s'.cap = n := by
    intro ops
    induction ops with
    | nil => intro s l h hc _; exact ⟨s, rfl, h, hc⟩
    | cons o os ih =>
      intro s l h hc ⟨h1, h2, h3⟩
      obtain ⟨s', a, b, c⟩ := C05_step h o h1 h2
      rw [runOps_cons_ok a]
      rw [hc] at b c
      exact ih s' _ b c h3
  obtain ⟨s', a, b, c⟩ := key ops (SVec.empty n) [] (SVec.rep_empty n) (by simp [SVec.empty, cap]) hv
  exact ⟨s', a, rep_toList b, b.size_eq, by have := b.size_le; rw [b.size_eq]; omega, c⟩

/-- For trivial element types (integers, bytes, ...) the history theorem needs no restriction on range erases. -/
theorem C05_static_vector_history_trivial (n : Nat) (ops : List (Op α)) (hv : ValidHist true n [] ops) :
    ∃ s', runOps (step true) (SVec.empty n : SVec α) ops = .ok s' ∧ s'.toList = .ok (ArrSpec.run n [] ops) ∧ s'.size ≤ n := by
  obtain ⟨s', a, b, _, d, _⟩ := C05_static_vector_history_partial true n ops hv
  exact ⟨s', a, b, d⟩

/-- Overflowing pushes are ignored, inserts shift, ranges that do not fit are ignored. -/
example : ValidHist false 4 [] [Op.pushBack 1, .insertRange 0 [2, 3, 4], .pushBack 5, .erase 1, .emplace 0 9, .insertRange 1 [7],
      .eraseRange 2 4, .appendRange [6, 6, 6]] ∧
    ArrSpec.run 4 [] [Op.pushBack 1, .insertRange 0 [2, 3, 4], .pushBack 5, .erase 1, .emplace 0 9, .insertRange 1 [7],
      .eraseRange 2 4, .appendRange [6, 6, 6]] = [9, 2, 6, 6] := by decide

/-- **C05 violated** for non-trivial element types: a middle range erase assigns to destroyed objects. -/
theorem C05_eraseRange_nontrivial_ub {s : SVec α} {l : List α} (h : Rep s l) {b e : Nat} (hbe : b < e) (he : e < l.length) :
    s.eraseRange false b e = .ub := by
  have h2 := h.size_eq
  have hu := Vec.eraseRange_ub h hbe (by simp only [toVec]; omega)
  unfold Vec.eraseRange at hu
  rw [if_neg (by simp only [toVec]; omega), if_neg (by omega), if_neg (by simp only [toVec]; omega), if_pos (by omega)] at hu
  simp only [toVec] at hu
  rw [eraseRange, if_neg (by omega), if_neg (by omega), if_pos (by omega)]
  cases hh : s.buf.destroyRange false b (e - b) with
  | ok c =>
    rw [hh] at hu; simp only [Res.ok_bind] at hu ⊢
    cases hh2 : c.shiftDown false e b (s.size - e) with
    | ok c2 => rw [hh2] at hu; cases hu
    | ub => rfl
    | loop => rw [hh2] at hu; cases hu
  | ub => rfl
  | loop => rw [hh] at hu; cases hu

example : Rep (⟨[.live 1, .live 2, .live 3], 3⟩ : SVec Nat) [1, 2, 3] ∧ 0 < 1 ∧ 1 < [1, 2, 3].length :=
  ⟨⟨rfl, rfl, [], rfl⟩, by decide, by decide⟩

/-! ## C06 -/

/-- **C06.** Range insert is all-or-nothing; range append adds the longest prefix that fits. -/
theorem C06_range_insert (triv : Bool) {s : SVec α} {l : List α} (h : Rep s l) {p : Nat} (hp : p ≤ l.length) (xs : List α) :
    (∃ s', s.insertRange triv p xs = .ok s' ∧ s'.cap = s.cap ∧
        (l.length + xs.length ≤ s.cap → s'.toList = .ok (l.take p ++ xs ++ l.drop p)) ∧
        (s.cap < l.length + xs.length → s'.toList = .ok l)) ∧
      ∃ s', s.appendRange xs = .ok s' ∧ s'.toList = .ok (l ++ xs.take (s.cap - l.length)) := by
  constructor
  · obtain ⟨s', a, b, c⟩ := insertRange_ok (triv := triv) h hp xs
    refine ⟨s', a, c, fun hf => ?_, fun hf => ?_⟩
    · rw [if_pos (by omega)] at b; exact rep_toList b
    · rw [if_neg (by omega)] at b; exact rep_toList b
  · obtain ⟨s', a, b, _⟩ := pushBackList_ok h xs
    exact ⟨s', a, rep_toList b⟩

example : Rep (⟨[.live 1, .live 2, .raw], 2⟩ : SVec Nat) [1, 2] ∧ 1 ≤ [1, 2].length :=
  ⟨⟨rfl, rfl, [.raw], rfl⟩, by decide⟩

/-! ## C07 -/

theorem svec_eqLoop [DecidableEq α] {other : SVec α} {m : List α} (h : Rep other m) {y : α} {ys : List α} (hm : m = y :: ys)
    (xs : List α) : eqLoop other xs = .ok ⟨decide (∀ x ∈ xs, x = y)⟩ := by
  have hg : other.buf.get 0 = .ok y := by
    obtain ⟨_, _, R, h3⟩ := h
    simp only [toVec] at h3
    subst hm
    simp [h3, Cells.get]
  induction xs with
  | nil => simp [eqLoop]
  | cons x xs ih =>
    simp only [eqLoop, hg, Res.ok_bind]
    by_cases hx : x = y
    · rw [if_neg (by simpa using hx), ih]; simp [hx]
    · rw [if_pos (by simpa using hx)]; simp [hx]

/-- What `operator==` of two different fixed-capacity vectors really decides: equal sizes and every element of the left
one equal to the *first* element of the right one. -/
theorem C07_static_vector_eq_partial [DecidableEq α] {s other : SVec α} {l m : List α} (hs : Rep s l) (ho : Rep other m) :
    s.eq other = .ok ⟨decide (l.length = m.length ∧ ∀ x ∈ l, some x = m.head?)⟩ := by
  unfold SVec.eq
  rw [hs.size_eq, ho.size_eq]
  by_cases hl : l.length = m.length
  · rw [if_neg (by simpa using hl), rep_toList hs]
    simp only [Res.ok_bind]
    cases m with
    | nil =>
      have : l = [] := by simpa using hl
      subst this
      simp [eqLoop]
    | cons y ys =>
      rw [svec_eqLoop ho rfl]
      simp [hl]
  · rw [if_pos hl]; simp [hl]

example : Rep (⟨[.live 1, .live 2], 2⟩ : SVec Nat) [1, 2] := ⟨rfl, rfl, [], rfl⟩

/-- **C07 violated**: two vectors with the same contents compare unequal unless all their elements are the same, and a vector all of whose elements are `x` compares equal to
every vector of its size that begins with `x`, whatever follows. -/
theorem C07_static_vector_eq_violated [DecidableEq α] {s other : SVec α} :
    (∀ l x y, Rep s l → Rep other l → l.head? = some x → y ∈ l → y ≠ x → s.eq other = .ok ⟨false⟩) ∧
      (∀ (x : α) m, Rep s (List.replicate (m.length + 1) x) → Rep other (x :: m) → s.eq other = .ok ⟨true⟩) := by
  refine ⟨fun l x y hs ho hx hy hne => ?_, fun x m hs ho => ?_⟩
  · rw [C07_static_vector_eq_partial hs ho]
    congr 2
    rw [decide_eq_false_iff_not]
    rintro ⟨_, h⟩
    have := h y hy
    rw [hx] at this
    exact hne (Option.some.inj this)
  · rw [C07_static_vector_eq_partial hs ho]
    congr 2
    rw [decide_eq_true_iff]
    refine ⟨by simp, fun y hy => ?_⟩
    rw [(List.mem_replicate.mp hy).2]
    rfl

-- `[1,1] == [1,2]` is true and `[1,2] == [1,2]` (two different objects) is false
example : (⟨[.live 1, .live 1], 2⟩ : SVec Nat).eq ⟨[.live 1, .live 2], 2⟩ = .ok ⟨true⟩ ∧
    (⟨[.live 1, .live 2], 2⟩ : SVec Nat).eq ⟨[.live 1, .live 2], 2⟩ = .ok ⟨false⟩ := by decide

/-- **C07** for the pure array: `operator==` decides equality of contents. -/
theorem C07_static_array_eq [DecidableEq α] (a b : List α) : StaticArray.eq a b = true ↔ a = b := by
  unfold StaticArray.eq
  have loop : ∀ (a b : List α), a.length = b.length → (StaticArray.eqLoop a b = true ↔ a = b) := by
    intro a
    induction a with
    | nil => intro b h; have : b = [] := by simpa using h.symm
             simp [this, StaticArray.eqLoop]
    | cons x a ih =>
      intro b h
      cases b with
      | nil => simp at h
      | cons y b =>
        simp only [StaticArray.eqLoop]
        by_cases hxy : x = y
        · simp [hxy, ih b (by simpa using h)]
        · simp [hxy]
  by_cases h : a.length = b.length
  · simp [h, loop a b h]
  · simp only [ne_eq, h, not_false_eq_true, if_true, Bool.false_eq_true, false_iff]
    intro hab; exact h (by rw [hab])

/-! ## C08 -/

/-- **C08 (partial)**: the copy constructor copies every element. -/
theorem C08_copy_ctor_partial (dst src : List α) (h : dst.length = src.length) : StaticArray.copyLoop dst src = .ok src := by
  induction src generalizing dst with
  | nil =>
    have : dst = [] := by simpa using h
    simp [this, StaticArray.copyLoop]
  | cons x src ih =>
    cases dst with
    | nil => simp at h
    | cons y dst => simp [StaticArray.copyLoop, ih dst (by simpa using h)]

example : [0, 0, 0].length = [1, 2, 3].length := rfl

/-- **C08 (partial)**: constructing from an initializer list or an array of another capacity takes every element of a source that
fits and leaves the rest default constructed; a larger array is not read at all. -/
theorem C08_other_partial (dflt src : List α) :
    (src.length ≤ dflt.length →
      StaticArray.copyLoop dflt src = .ok (src ++ dflt.drop src.length) ∧
      StaticArray.ofOther dflt src = .ok (src ++ dflt.drop src.length)) ∧
    (dflt.length < src.length → StaticArray.ofOther dflt src = .ok dflt) := by
  have key : ∀ (src dflt : List α), src.length ≤ dflt.length → StaticArray.copyLoop dflt src = .ok (src ++ dflt.drop src.length) := by
    intro src
    induction src with
    | nil => intro dflt _; simp [StaticArray.copyLoop]
    | cons x src ih =>
      intro dflt h
      cases dflt with
      | nil => simp at h
      | cons y dflt => simp [StaticArray.copyLoop, ih dflt (by simpa using h)]
  refine ⟨fun h => ⟨key src dflt h, ?_⟩, fun h => ?_⟩
  · rw [StaticArray.ofOther, if_pos h, key src dflt h]
  · rw [StaticArray.ofOther, if_neg (by omega)]

example : [1, 2].length ≤ [0, 0, 0].length ∧ [0].length < [1, 2].length := by decide

theorem assignLoop_eq (d : α) (ds src : List α) :
    StaticArray.assignLoop (d :: ds) src = .ok ((d :: src).getLast (by simp) :: ds) := by
  induction src generalizing d with
  | nil => simp [StaticArray.assignLoop]
  | cons x src ih => simp [StaticArray.assignLoop, ih x]

/-- What copy assignment and `clone()` really do: the first element becomes the *last* element of the source, everything
else keeps its old value. -/
theorem C08_assign_effect (d : α) (ds src : List α) (hl : src.length = ds.length + 1) (hne : src ≠ []) :
    StaticArray.assign (d :: ds) src = .ok (src.getLast hne :: ds) ∧
      StaticArray.clone (d :: ds) src = .ok (src.getLast hne :: ds) := by
  have e : StaticArray.assignLoop (d :: ds) src = .ok (src.getLast hne :: ds) := by
    rw [assignLoop_eq]
    congr 2
    cases src with
    | nil => exact absurd rfl hne
    | cons x xs => simp
  refine ⟨?_, e⟩
  unfold StaticArray.assign
  rw [if_pos (by simp; omega), e]

example : [4, 5, 6].length = [0, 0].length + 1 ∧ [4, 5, 6] ≠ [] := by decide

/-- Copy assignment gives the source's contents exactly when the source equals that degenerate result. -/
theorem C08_assign_correct_iff (d : α) (ds src : List α) (hl : src.length = ds.length + 1) (hne : src ≠ []) :
    StaticArray.assign (d :: ds) src = .ok src ↔ src = src.getLast hne :: ds := by
  rw [(C08_assign_effect d ds src hl hne).1, Res.ok.injEq]
  exact eq_comm

/-- **C08 violated**: copy assignment and `clone` give something else than the source as soon as its first and last element differ or the target differs from it
anywhere behind the first element. -/
theorem C08_assign_violated (d x : α) (ds xs : List α) (hl : xs.length = ds.length) (h : (x :: xs).getLast (by simp) ≠ x ∨ xs ≠ ds) :
    StaticArray.assign (d :: ds) (x :: xs) ≠ .ok (x :: xs) ∧ StaticArray.clone (d :: ds) (x :: xs) ≠ .ok (x :: xs) := by
  obtain ⟨h1, h2⟩ := C08_assign_effect d ds (x :: xs) (by simp [hl]) (by simp)
  rw [h1, h2]
  have : (.ok ((x :: xs).getLast (by simp) :: ds) : Res (List α)) ≠ .ok (x :: xs) := by
    intro e
    injection e with e
    injection e with e1 e2
    rcases h with h | h
    · exact h e1
    · exact h e2.symm
  exact ⟨this, this⟩

-- assigning `[4,5,6]` to `[0,0,0]` gives `[6,0,0]`
example : StaticArray.assign [0, 0, 0] [4, 5, 6] = .ok [6, 0, 0] ∧ StaticArray.clone [0, 0, 0] [4, 5, 6] = .ok [6, 0, 0] := by decide

/-! ## C57: copies of a fixed-capacity vector -/

/-- **C57.** Copy construction, copy assignment and `clone` of a fixed-capacity vector give exactly the source's contents;
between different capacities a source that does not fit leaves the target empty (construction) or unchanged
(assignment). -/
theorem C57_static_vector_copies (triv : Bool) {s src : SVec α} {l m : List α} (hs : Rep s l) (hm : Rep src m) (n : Nat) :
    (∃ c, src.clone = .ok c ∧ c.toList = .ok m ∧ c.cap = src.cap) ∧
      (∃ c, ofOther n src = .ok c ∧ c.toList = .ok (if m.length ≤ n then m else []) ∧ c.cap = n) ∧
      ∃ c, s.assignOther triv src = .ok c ∧ c.toList = .ok (if m.length ≤ s.cap then m else l) ∧ c.cap = s.cap := by
  have hec : ∀ n, (SVec.empty n : SVec α).cap = n := by intro n; simp [SVec.empty, cap]
  refine ⟨?_, ?_, ?_⟩
  · obtain ⟨c, a, b, d⟩ := pushBackList_ok (SVec.rep_empty (α := α) src.cap) m
    rw [hec] at b d
    have := hm.size_le
    rw [List.take_of_length_le (by simp; omega)] at b
    exact ⟨c, by simp only [SVec.clone, rep_toList hm, Res.ok_bind]; exact a, by simpa using rep_toList b, d⟩
  · by_cases hn : m.length ≤ n
    · obtain ⟨c, a, b, d⟩ := pushBackList_ok (SVec.rep_empty (α := α) n) m
      rw [hec] at b d
      rw [List.take_of_length_le (by simp; omega)] at b
      refine ⟨c, ?_, by rw [if_pos hn]; simpa using rep_toList b, d⟩
      rw [ofOther, if_pos (by rw [hm.size_eq]; exact hn), rep_toList hm]
      exact a
    · refine ⟨SVec.empty n, ?_, by rw [if_neg hn]; exact rep_toList (SVec.rep_empty n), hec n⟩
      rw [ofOther, if_neg (by rw [hm.size_eq]; exact hn)]
  · by_cases hn : m.length ≤ s.cap
    · obtain ⟨s', a, b, c⟩ := clean_ok (triv := triv) hs
      obtain ⟨c', a', b', d'⟩ := pushBackList_ok b m
      rw [List.take_of_length_le (by rw [c]; simp; omega)] at b'
      refine ⟨c', ?_, by rw [if_pos hn]; simpa using rep_toList b', by omega⟩
      rw [assignOther, if_neg (by rw [hm.size_eq]; omega), rep_toList hm]
      simp only [Res.ok_bind, a]
      exact a'
    · refine ⟨s, ?_, by rw [if_neg hn]; exact rep_toList hs, rfl⟩
      rw [assignOther, if_pos (by rw [hm.size_eq]; omega)]

example : Rep (⟨[.live 1, .live 2], 2⟩ : SVec Nat) [1, 2] ∧ Rep (⟨[.live 5, .raw], 1⟩ : SVec Nat) [5] :=
  ⟨⟨rfl, rfl, [], rfl⟩, ⟨rfl, rfl, [.raw], rfl⟩⟩

/-! ## C58: erasing through reverse iterators -/

/-- **C58.** Erasing at a reverse iterator removes the element it refers to; erasing a reverse range that starts at index
`first` and stops before index `last` removes exactly the elements visited. -/
theorem C58_erase_reverse {s : SVec α} {l : List α} (h : Rep s l) :
    (∀ triv r, r < l.length → ∃ s', s.eraseRev triv r = .ok s' ∧ s'.toList = .ok (l.take r ++ l.drop (r + 1))) ∧
      ∀ first last : Int, -1 ≤ last → last ≤ first → first < l.length → ∃ s', s.eraseRevRange true first last = .ok s' ∧
        s'.toList = .ok (l.take (last + 1).toNat ++ l.drop (first + 1).toNat) := by
  constructor
  · intro triv r hr
    obtain ⟨s', a, b, _⟩ := erase_ok (triv := triv) h (p := r) (by omega)
    exact ⟨s', a, rep_toList b⟩
  · intro first last h1 h2 h3
    obtain ⟨s', a, b, _⟩ := eraseRange_ok (triv := true) h (b := (last + 1).toNat) (e := (first + 1).toNat) (by omega)
      (by omega) (Or.inl rfl)
    rw [if_pos (by omega)] at b
    exact ⟨s', by rw [eraseRevRange, if_neg (by omega)]; exact a, rep_toList b⟩

example : Rep (⟨[.live 1, .live 2, .live 3], 3⟩ : SVec Nat) [1, 2, 3] ∧ (-1 : Int) ≤ 0 ∧ (0 : Int) ≤ 2 ∧
    (2 : Int) < [1, 2, 3].length := ⟨⟨rfl, rfl, [], rfl⟩, by decide, by decide, by decide⟩

namespace Flame
open SVec ArrSpec
example := C05_step (triv := false) (s := (⟨[.live 1, .live 2, .raw], 2⟩ : SVec Nat)) (l := [1, 2]) ⟨rfl, rfl, [.raw], rfl⟩ (.insert 1 9) (by decide) (by decide)
example := C05_static_vector_history_partial false 4 [Op.pushBack 1, .insertRange 0 [2, 3, 4], .pushBack 5, .erase 1, .emplace 0 9] (by decide)
example := C08_assign_correct_iff 0 [0, 0] [4, 5, 6] rfl (by decide)
end Flame

end Flame
