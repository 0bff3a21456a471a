import Verif.Hybrid.Iter
import Verif.Hybrid.CopiesProps
import Verif.Array.ReverseProps

/-!
# C132: the iterators of a `HybridVector`
-/

namespace Flame
open HVec HybSpec
variable {α : Type}

/-- **C132 (partial)**: the iterators `begin() + m` of a container with storage behave like the integers `m`: differences, equality, order, moving
there and back, stepping.  Missing: containers without storage (`C132_unset_violated`). -/
theorem C132_integers_partial {h : HVec α} (hs : h ≠ .unset) (m n : Int) :
    ∃ a b, HIt.add h.begin m = .ok a ∧ HIt.add h.begin n = .ok b ∧ HIt.diff a b = m - n ∧
      (HIt.eq a b = true ↔ m = n) ∧ (HIt.ne a b = true ↔ m ≠ n) ∧
      HIt.lt a b = .ok (decide (m < n)) ∧ HIt.gt a b = .ok (decide (n < m)) ∧
      HIt.le a b = .ok (decide (m ≤ n)) ∧ HIt.ge a b = .ok (decide (n ≤ m)) ∧
      HIt.add a n = HIt.add h.begin (m + n) ∧ HIt.sub a n = HIt.add h.begin (m - n) ∧
      HIt.inc a = HIt.add h.begin (m + 1) ∧ HIt.dec a = HIt.add h.begin (m - 1) ∧
      (∃ a', HIt.add h.begin (m + 1) = .ok a' ∧ HIt.postInc a = .ok (a, a')) ∧
      (∃ a', HIt.add h.begin (m - 1) = .ok a' ∧ HIt.postDec a = .ok (a, a')) ∧ HIt.copy a = a := by
  cases h with
  | unset => exact absurd rfl hs
  | arr s =>
    refine ⟨.arr m, .arr n, by simp [HIt.add, begin, HIt.copy, HIt.addAssign], by simp [HIt.add, begin, HIt.copy, HIt.addAssign], rfl, ?_⟩
    refine ⟨by simp [HIt.eq], by simp [HIt.ne, HIt.eq], ?_⟩
    refine ⟨rfl, rfl, rfl, rfl, ?_⟩
    simp [HIt.add, HIt.sub, begin, HIt.copy, HIt.addAssign, HIt.subAssign, HIt.inc, HIt.dec, HIt.postInc, HIt.postDec]
  | vec v =>
    refine ⟨.vec m, .vec n, by simp [HIt.add, begin, HIt.copy, HIt.addAssign], by simp [HIt.add, begin, HIt.copy, HIt.addAssign], rfl, ?_⟩
    refine ⟨by simp [HIt.eq], by simp [HIt.ne, HIt.eq], ?_⟩
    refine ⟨rfl, rfl, rfl, rfl, ?_⟩
    simp [HIt.add, HIt.sub, begin, HIt.copy, HIt.addAssign, HIt.subAssign, HIt.inc, HIt.dec, HIt.postInc, HIt.postDec]

/-- **C132 (partial)**: `end()` is `begin() + size()`; reading through `begin() + m`, at distance `n`, gives element `m + n`. -/
theorem C132_read_partial {N : Nat} {h : HVec α} {l : List α} (hr : Holds N h l) (hs : h ≠ .unset) :
    HIt.add h.begin l.length = .ok h.end' ∧ HIt.add h.begin ((l.length : Int) - 1) = .ok h.rbegin ∧ HIt.add h.begin (-1) = .ok h.rend ∧
      ∀ (m n : Int) (i : Nat) (hi : i < l.length), m + n = i →
        ∃ a b, HIt.add h.begin m = .ok a ∧ HIt.add h.begin i = .ok b ∧ HIt.at? h a n = .ok l[i] ∧ HIt.deref h b = .ok l[i] := by
  have hz := hr.shows.1
  have hg := hr.shows.2.2
  cases h with
  | unset => exact absurd rfl hs
  | arr s =>
    simp only [HVec.size] at hz
    refine ⟨by simp [HIt.add, begin, HIt.copy, HIt.addAssign, end', hz], by simp [HIt.add, begin, HIt.copy, HIt.addAssign, rbegin, hz],
      by simp [HIt.add, begin, HIt.copy, HIt.addAssign, rend], ?_⟩
    intro m n i hi e
    refine ⟨.arr m, .arr i, by simp [HIt.add, begin, HIt.copy, HIt.addAssign], by simp [HIt.add, begin, HIt.copy, HIt.addAssign], ?_, ?_⟩
    · have := hg i hi
      simp only [HVec.at?] at this
      rw [HIt.at?, e]; simp [HIt.deref, this]
    · have := hg i hi
      simp only [HVec.at?] at this
      simp [HIt.deref, this]
  | vec v =>
    simp only [HVec.size] at hz
    refine ⟨by simp [HIt.add, begin, HIt.copy, HIt.addAssign, end', hz], by simp [HIt.add, begin, HIt.copy, HIt.addAssign, rbegin, hz],
      by simp [HIt.add, begin, HIt.copy, HIt.addAssign, rend], ?_⟩
    intro m n i hi e
    refine ⟨.vec m, .vec i, by simp [HIt.add, begin, HIt.copy, HIt.addAssign], by simp [HIt.add, begin, HIt.copy, HIt.addAssign], ?_, ?_⟩
    · have := hg i hi
      simp only [HVec.at?] at this
      rw [HIt.at?, e]; simp [HIt.deref, this]
    · have := hg i hi
      simp only [HVec.at?] at this
      simp [HIt.deref, this]

theorem loop_from {h : HVec α} {l : List α} {mk : Int → HIt} (hd : ∀ i (hi : i < l.length), HIt.deref h (mk i) = .ok l[i])
    (hi : ∀ p, HIt.inc (mk p) = .ok (mk (p + 1))) (hn : ∀ p q, HIt.ne (mk p) (mk q) = !(p == q)) :
    ∀ k, k ≤ l.length → h.loop (k + 1) (mk ((l.length - k : Nat) : Int)) (mk l.length) = .ok (l.drop (l.length - k)) := by
  intro k
  induction k with
  | zero => intro _; simp [loop, hn]
  | succ k ih =>
    intro hk
    have ih := ih (by omega)
    rw [loop, hn, if_pos (by simp; omega), hd (l.length - (k + 1)) (by omega), Res.ok_bind, hi, Res.ok_bind]
    rw [show ((l.length - (k + 1) : Nat) : Int) + 1 = ((l.length - k : Nat) : Int) by omega, ih, Res.ok_bind]
    rw [List.drop_eq_getElem_cons (i := l.length - (k + 1)) (by omega)]
    rw [show l.length - (k + 1) + 1 = l.length - k by omega]

/-- **C132 (partial)**: a range-for over a container with storage visits exactly the sequence, in order, and stops. -/
theorem C132_forward_partial {N : Nat} {h : HVec α} {l : List α} (hr : Holds N h l) (hs : h ≠ .unset) :
    h.loop (l.length + 1) h.begin h.end' = .ok l := by
  have hz := hr.shows.1
  have hg := hr.shows.2.2
  cases h with
  | unset => exact absurd rfl hs
  | arr s =>
    simp only [HVec.size] at hz
    have := loop_from (h := .arr s) (l := l) (mk := .arr) (fun i hi => by
      have := hg i hi
      simp only [HVec.at?] at this
      simp [HIt.deref, this]) (fun p => rfl) (fun p q => rfl) l.length (Nat.le_refl _)
    simpa [begin, end', hz] using this
  | vec v =>
    simp only [HVec.size] at hz
    have := loop_from (h := .vec v) (l := l) (mk := .vec) (fun i hi => by
      have := hg i hi
      simp only [HVec.at?] at this
      simp [HIt.deref, this]) (fun p => rfl) (fun p q => rfl) l.length (Nat.le_refl _)
    simpa [begin, end', hz] using this

theorem loopBack_from {h : HVec α} {l : List α} {mk : Int → HIt} (hd : ∀ i (hi : i < l.length), HIt.deref h (mk i) = .ok l[i])
    (hi : ∀ p, HIt.dec (mk p) = .ok (mk (p - 1))) (hn : ∀ p q, HIt.ne (mk p) (mk q) = !(p == q)) :
    ∀ k, k ≤ l.length → h.loopBack (k + 1) (mk ((k : Int) - 1)) (mk (-1)) = .ok (l.take k).reverse := by
  intro k
  induction k with
  | zero => intro _; simp [loopBack, hn]
  | succ k ih =>
    intro hk
    have ih := ih (by omega)
    have hd' := hd k (by omega)
    rw [loopBack, hn, if_pos (by simp), show ((k + 1 : Nat) : Int) - 1 = k by omega, hd', Res.ok_bind, hi, Res.ok_bind,
      ih, Res.ok_bind]
    rw [List.take_succ_eq_append_getElem (by omega), List.reverse_append]
    rfl

/-- **C132 (partial)**: over reverse iterators (pointers taken as addresses, see C128), the sequence in reverse. -/
theorem C132_backward_partial {N : Nat} {h : HVec α} {l : List α} (hr : Holds N h l) (hs : h ≠ .unset) :
    h.loopBack (l.length + 1) h.rbegin h.rend = .ok l.reverse := by
  have hz := hr.shows.1
  have hg := hr.shows.2.2
  cases h with
  | unset => exact absurd rfl hs
  | arr s =>
    simp only [HVec.size] at hz
    have := loopBack_from (h := .arr s) (l := l) (mk := .arr) (fun i hi => by
      have := hg i hi
      simp only [HVec.at?] at this
      simp [HIt.deref, this]) (fun p => rfl) (fun p q => rfl) l.length (Nat.le_refl _)
    simpa [rbegin, rend, hz] using this
  | vec v =>
    simp only [HVec.size] at hz
    have := loopBack_from (h := .vec v) (l := l) (mk := .vec) (fun i hi => by
      have := hg i hi
      simp only [HVec.at?] at this
      simp [HIt.deref, this]) (fun p => rfl) (fun p q => rfl) l.length (Nat.le_refl _)
    simpa [rbegin, rend, hz] using this

/-- **C132 violated** for a container without storage, though it counts zero elements: its iterators are not even equal to themselves, so every
traversal starts and reads through a null pointer; ordering and moving them is undefined. -/
theorem C132_unset_violated (f : Nat) (n : Int) :
    let h : HVec α := .unset
    h.size = 0 ∧ HIt.diff h.end' h.begin = 0 ∧ HIt.eq h.begin h.begin = false ∧ HIt.ne h.begin h.end' = true ∧
      h.loop (f + 1) h.begin h.end' = .ub ∧ h.loopBack (f + 1) h.rbegin h.rend = .ub ∧
      HIt.add h.begin n = .ub ∧ HIt.sub h.begin n = .ub ∧ HIt.inc h.begin = .ub ∧ HIt.dec h.begin = .ub ∧ HIt.at? h h.begin n = .ub ∧
      HIt.lt h.begin h.end' = .ub ∧ HIt.le h.begin h.end' = .ub ∧ HIt.gt h.begin h.end' = .ub ∧ HIt.ge h.begin h.end' = .ub ∧
      HIt.le (HIt.copy h.begin) h.begin = .ok false :=
  ⟨rfl, rfl, rfl, rfl, rfl, rfl, rfl, rfl, rfl, rfl, rfl, rfl, rfl, rfl, rfl, rfl⟩

/-- **C132**: an iterator kept while the storage changes fits nothing any more: it is unequal to every iterator of the new storage, at
distance zero from it, and neither before nor after nor level with it. -/
theorem C132_stale (p q : Int) :
    HIt.eq (.arr p) (.vec q) = false ∧ HIt.eq (.vec q) (.arr p) = false ∧ HIt.diff (.arr p) (.vec q) = 0 ∧ HIt.diff (.vec q) (.arr p) = 0 ∧
      ∀ op ∈ [HIt.lt, HIt.le, HIt.gt, HIt.ge], op (.arr p) (.vec q) = .ok false ∧ op (.vec q) (.arr p) = .ok false := by
  refine ⟨rfl, rfl, rfl, rfl, ?_⟩
  intro op ho
  simp only [List.mem_cons, List.mem_nil_iff, or_false] at ho
  rcases ho with rfl | rfl | rfl | rfl <;> exact ⟨rfl, rfl⟩

/-- **C132**: how that comes about: appending one element to a full array.  A traversal from the old `begin()` to the new `end()` is undefined. -/
theorem C132_stale_after_append (triv : Bool) (can : Nat → Bool) (hcan : ∀ n, can n = true) {xs : List α} (hx : xs ≠ []) (y : α) (f g : Nat) :
    ∃ h h', runOps (HVec.step triv can xs.length (f + 3)) (.unset : HVec α) (xs.map Op.pushBack) = .ok h ∧
      HVec.step triv can xs.length (f + 3) h (.pushBack y) = .ok h' ∧ h'.Shows (xs ++ [y]) ∧ HIt.ne h.begin h'.end' = true ∧
      h'.loop (g + 1) h.begin h'.end' = .ub := by
  obtain ⟨s, a, b, c⟩ := push_stays_inline triv can xs.length (f + 3) xs hx (Nat.le_refl _)
  have hz := b.size_eq
  obtain ⟨v, a1, b1, c1⟩ := HVec.toVector_ok hcan b (f + 2)
  have hpos := List.length_pos_iff.mpr hx
  obtain ⟨v', a2, b2, _⟩ := Vec.pushBack_ok hcan (f := f + 1) b1 (by omega) y
  refine ⟨.arr s, .vec v', a, ?_, Holds.shows (N := xs.length) b2, rfl, rfl⟩
  simp only [HVec.step, HVec.pushBack, pushBackArr]
  rw [if_neg (by omega), a1, Res.ok_bind, a2, Res.ok_bind]

/-- **C132**: inserting at an iterator of the container is inserting at its position (and so what C21 says of positions). -/
theorem C132_insert (triv : Bool) (can : Nat → Bool) (f : Nat) {h : HVec α} (hs : h ≠ .unset) (p : Nat) (x : α) :
    ∃ it, HIt.add h.begin p = .ok it ∧ insertIt triv can f h it x = h.insert triv can f p x := by
  cases h with
  | unset => exact absurd rfl hs
  | arr s =>
    refine ⟨.arr p, by simp [HIt.add, begin, HIt.copy, HIt.addAssign], ?_⟩
    simp only [insertIt, HVec.insert, toArrayIt]
    split
    · rw [if_neg (by omega)]; rfl
    · cases hv : toVector can f s with
      | ub => rfl
      | loop => rfl
      | ok v =>
        simp only [Res.ok_bind, HIt.add, begin, HIt.copy, HIt.addAssign, HIt.diff, toVectorIt, insertVecAt]
        by_cases hp : p = 0
        · subst hp; simp
        · rw [if_pos (by omega), if_neg hp]
  | vec v =>
    refine ⟨.vec p, by simp [HIt.add, begin, HIt.copy, HIt.addAssign], ?_⟩
    simp only [insertIt, HVec.insert, toVectorIt, insertVecAt]
    rw [if_neg (by omega)]
    rfl

/-- **C132**: an iterator kept from heap storage, used for insertion into a full array, silently means the front, whatever it pointed at; into an
array with room, or the other way round, it is undefined. -/
theorem C132_stale_insert (triv : Bool) (can : Nat → Bool) (f : Nat) (s : SVec α) (v : Vec α) (q : Int) (x : α) :
    insertIt triv can f (.arr s) (.vec q) x = (if s.cap > s.size then .ub else (HVec.arr s).insert triv can f 0 x) ∧
      insertIt triv can f (.vec v) (.arr q) x = .ub := by
  refine ⟨?_, rfl⟩
  simp only [insertIt, HVec.insert, toArrayIt]
  split
  · rfl
  · cases hv : toVector can f s with
    | ub => rfl
    | loop => rfl
    | ok v => simp [HIt.add, begin, HIt.copy, HIt.addAssign, HIt.diff, toVectorIt, insertVecAt]

/-! ## Examples -/

example : Holds 3 (.arr ⟨[.live 7, .live 8, .raw], 2⟩ : HVec Nat) [7, 8] ∧ (HVec.arr ⟨[.live 7, .live 8, .raw], 2⟩ : HVec Nat) ≠ .unset :=
  ⟨⟨⟨rfl, rfl, [.raw], rfl⟩, rfl⟩, by simp⟩

example : (HVec.vec ⟨[.live 7, .live 8, .raw], 3, 2⟩ : HVec Nat).loop 3 (.vec 0) (.vec 2) = .ok [7, 8] := by decide

/-- A full array of two, an iterator from earlier heap storage to its third element: the new element comes first. -/
example : insertIt true (fun _ => true) 4 (.arr ⟨[.live 7, .live 8], 2⟩ : HVec Nat) (.vec 2) 9 =
    .ok (.vec ⟨[.live 9, .live 7, .live 8, .raw], 4, 3⟩) := by decide

namespace Flame
open HVec HybSpec
def exArr : HVec Nat := .arr ⟨[.live 7, .live 8, .raw], 2⟩
theorem exArr_holds : Holds 3 exArr [7, 8] := ⟨⟨rfl, rfl, [.raw], rfl⟩, rfl⟩
example := C132_integers_partial (h := exArr) (by simp [exArr]) 5 (-2)
example := C132_read_partial exArr_holds (by simp [exArr])
example := C132_forward_partial exArr_holds (by simp [exArr])
example := C132_backward_partial exArr_holds (by simp [exArr])
example := C132_stale_after_append true (fun _ => true) (fun _ => rfl) (xs := [7, 8]) (by simp) 9 0 4
example := C132_insert true (fun _ => true) 4 (h := exArr) (by simp [exArr]) 1 9
end Flame

end Flame
