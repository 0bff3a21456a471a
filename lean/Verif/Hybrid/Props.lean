import Verif.Hybrid.Model
import Verif.Hybrid.Spec
import Verif.Vector.Lemmas
import Verif.Vector.Props
import Verif.Array.Lemmas

/-!
# Properties of `HybridVector` (C21)
-/

namespace Flame
open HVec HybSpec
variable {α : Type}

namespace HVec

/-- `h` holds the sequence `l`; the inline array has `N` slots, a heap vector at least two. -/
def HRep (N : Nat) : HVec α → List α → Prop
  | .unset, l => l = []
  | .arr s, l => SVec.Rep s l ∧ s.cap = N
  | .vec v, l => Vec.Rep v l ∧ 2 ≤ v.cap

/-- One call of the public interface. -/
def step (triv : Bool) (can : Nat → Bool) (N f : Nat) (h : HVec α) : Op α → Res (HVec α)
  | .pushBack x => pushBack can N f h x
  | .popBack => popBack triv h
  | .insert p x => insert triv can f h p x
  | .emplace p x => emplace triv can f h p x
  | .insertRange p xs => insertRange triv can f h p xs
  | .erase p => erase triv N h p
  | .eraseRange b e => eraseRange triv N h b e
  | .clean => .ok (clean N h)
  | .reset => .ok (reset h)

theorem toVector_ok {can : Nat → Bool} (hcan : ∀ n, can n = true) {s : SVec α} {l : List α} (h : SVec.Rep s l) (f : Nat) :
    ∃ v, toVector can (f + 1) s = .ok v ∧ Vec.Rep v l ∧ v.cap = 2 * l.length := by
  have hs := h.size_eq
  have hc : ((Vec.empty : Vec α).reserve can (s.size * 2)).cap = s.size * 2 := by
    rw [Vec.reserve_cap _ (hcan _)]; simp [Vec.empty]
  obtain ⟨v, a, b, c, _⟩ := Vec.pushBackList_ok (can := can) (f := f) (xs := l)
    (Vec.reserve_rep (can := can) (Vec.rep_empty (α := α)) (s.size * 2))
    (by rw [hc, Vec.reserve_size]; simp [Vec.empty]; omega)
  refine ⟨v, by simp only [toVector, SVec.rep_toList h, Res.ok_bind, a], by simpa using b, by rw [c, hc]; omega⟩

theorem toArray_ok {v : Vec α} {l : List α} (h : Vec.Rep v l) {N : Nat} (hN : l.length ≤ N) :
    ∃ s, toArray N v = .ok s ∧ SVec.Rep s l ∧ s.cap = N := by
  have h1 := (rep_observe h).1
  have h2 := h.2.1
  obtain ⟨s, a, b, c⟩ := SVec.pushBackList_ok (SVec.rep_empty (α := α) N) l
  have hc : (SVec.empty N : SVec α).cap = N := by simp [SVec.cap, SVec.empty]
  refine ⟨s, ?_, ?_, by omega⟩
  · simp only [Vec.toList] at h1
    rw [toArray, if_neg (by omega), h1]; exact a
  · rw [hc, List.take_of_length_le (by simpa using hN)] at b
    simpa using b

theorem shrinkArr_ok {N : Nat} {s : SVec α} {l : List α} (h : SVec.Rep s l) (hc : s.cap = N) :
    ∃ h', shrinkArr s = .ok h' ∧ HRep N h' l := by
  have := h.size_eq
  unfold shrinkArr
  split
  · exact ⟨_, rfl, by simp only [HRep]; exact List.eq_nil_of_length_eq_zero (by omega)⟩
  · exact ⟨_, rfl, h, hc⟩

theorem shrinkVec_ok {N : Nat} {v : Vec α} {l : List α} (h : Vec.Rep v l) (hc : 2 ≤ v.cap) :
    ∃ h', shrinkVec N v = .ok h' ∧ HRep N h' l := by
  have := h.2.1
  unfold shrinkVec
  split
  · obtain ⟨s, a, b, c⟩ := toArray_ok h (N := N) (by omega)
    exact ⟨.arr s, by rw [a]; rfl, b, c⟩
  · exact ⟨_, rfl, h, hc⟩

theorem pushBackArr_ok {can : Nat → Bool} (hcan : ∀ n, can n = true) {N : Nat} {s : SVec α} {l : List α} (h : SVec.Rep s l)
    (hc : s.cap = N) (x : α) (f : Nat) : ∃ h', pushBackArr can (f + 3) s x = .ok h' ∧ HRep N h' (l ++ [x]) := by
  have hs := h.size_eq
  unfold pushBackArr
  split
  · obtain ⟨s', a, b, c⟩ := SVec.pushBack_ok h x
    rw [if_pos (by omega)] at b
    exact ⟨.arr s', by rw [a]; rfl, b, by omega⟩
  · obtain ⟨v, a, b, c⟩ := toVector_ok hcan h (f + 2)
    obtain ⟨v', a', b', c', _⟩ := Vec.pushBack_ok hcan (f := f + 1) b (by omega) x
    refine ⟨.vec v', by rw [a]; simp only [Res.ok_bind]; rw [a']; rfl, b', ?_⟩
    rw [c', Vec.nextCap]
    have := b.2.1
    split
    · split <;> omega
    · omega

/-- One supported call refines the sequence operation. -/
theorem step_ok {triv : Bool} {can : Nat → Bool} (hcan : ∀ n, can n = true) {N : Nat} {h : HVec α} {l : List α} (hr : HRep N h l)
    (o : Op α) (hv : valid l o) (hs : safe triv N l o) (f : Nat) :
    ∃ h', step triv can N (f + 3) h o = .ok h' ∧ HRep N h' (apply l o) := by
  have hE : (SVec.empty N : SVec α).cap = N := by simp [SVec.cap, SVec.empty]
  cases o with
  | pushBack x =>
    match h, hr with
    | .unset, hr =>
      have hr : l = [] := hr
      subst hr; exact pushBackArr_ok hcan (SVec.rep_empty N) hE x f
    | .arr s, hr => exact pushBackArr_ok hcan hr.1 hr.2 x f
    | .vec v, hr =>
      obtain ⟨v', a, b, c, _⟩ := Vec.pushBack_ok hcan (f := f + 1) hr.1 (by have := hr.2; omega) x
      refine ⟨.vec v', by simp only [step, pushBack]; rw [a]; rfl, b, ?_⟩
      have := hr.2
      rw [c, Vec.nextCap]
      split
      · split <;> omega
      · omega
  | popBack =>
    match h, hr with
    | .unset, hr =>
      have hr : l = [] := hr
      subst hr; exact ⟨.unset, rfl, rfl⟩
    | .arr s, hr =>
      obtain ⟨s', a, b, c⟩ := SVec.popBack_ok (triv := triv) hr.1
      exact ⟨.arr s', by simp only [step, popBack]; rw [a]; rfl, b, by have := hr.2; omega⟩
    | .vec v, hr =>
      obtain ⟨v', a, b, c, _⟩ := Vec.popBack_ok (triv := triv) hr.1
      exact ⟨.vec v', by simp only [step, popBack]; rw [a]; rfl, b, by have := hr.2; omega⟩
  | insert p x =>
    have hp : p ≤ l.length := hv
    obtain ⟨hne, hs⟩ : l ≠ [] ∧ (l.length ≠ N ∨ p = 0) := hs
    match h, hr with
    | .unset, hr => exact absurd hr hne
    | .arr s, hr =>
      have hz := hr.1.size_eq
      have hle := hr.1.size_le
      by_cases hf : s.cap > s.size
      · obtain ⟨s', a, _, b, c⟩ := SVec.insert_ok (triv := triv) hr.1 hp x
        rw [if_pos (by omega)] at b
        exact ⟨.arr s', by simp only [step, insert, hf, if_true]; rw [a]; rfl, b, by have := hr.2; omega⟩
      · have hp0 : p = 0 := by have := hr.2; omega
        subst hp0
        obtain ⟨v, a, b, c⟩ := toVector_ok hcan hr.1 (f + 2)
        have hpos := List.length_pos_iff.mpr hne
        obtain ⟨v', a', _, b', c', _⟩ := Vec.insert_ok (triv := triv) hcan (f := f) b x (p := 0) (by omega) (by omega)
        refine ⟨.vec v', ?_, b', ?_⟩
        · simp only [step, insert, hf, if_false, a, Res.ok_bind, if_true, a']
        · rw [c', Vec.nextCap]; split
          · split <;> omega
          · omega
    | .vec v, hr =>
      obtain ⟨v', a', _, b', c', _⟩ := Vec.insert_ok (triv := triv) hcan (f := f) hr.1 x (p := p)
        (by rw [hr.1.2.1]; exact hp) (by have := hr.2; omega)
      refine ⟨.vec v', by simp only [step, insert, a', Res.ok_bind], b', ?_⟩
      have := hr.2
      rw [c', Vec.nextCap]; split
      · split <;> omega
      · omega
  | emplace p x =>
    have hp : p ≤ l.length := hv
    have hne : l ≠ [] := hs
    match h, hr with
    | .unset, hr => exact absurd hr hne
    | .arr s, hr =>
      have hz := hr.1.size_eq
      have hle := hr.1.size_le
      by_cases hf : s.cap = s.size
      · obtain ⟨v, a, b, c⟩ := toVector_ok hcan hr.1 (f + 2)
        have hpos := List.length_pos_iff.mpr hne
        obtain ⟨v', _, a', b', c', _⟩ := Vec.insert_ok (triv := triv) hcan (f := f) b x (p := p) (by rw [b.2.1]; exact hp)
          (by omega)
        refine ⟨.vec v', ?_, b', ?_⟩
        · simp only [step, emplace, hf, if_true, a, Res.ok_bind, a']
        · rw [c', Vec.nextCap]; split
          · split <;> omega
          · omega
      · obtain ⟨s', _, a, b, c⟩ := SVec.insert_ok (triv := triv) hr.1 hp x
        rw [if_pos (by omega)] at b
        exact ⟨.arr s', by simp only [step, emplace, hf, if_false]; rw [a]; rfl, b, by have := hr.2; omega⟩
    | .vec v, hr =>
      obtain ⟨v', _, a', b', c', _⟩ := Vec.insert_ok (triv := triv) hcan (f := f) hr.1 x (p := p)
        (by rw [hr.1.2.1]; exact hp) (by have := hr.2; omega)
      refine ⟨.vec v', by simp only [step, emplace, a', Res.ok_bind], b', ?_⟩
      have := hr.2
      rw [c', Vec.nextCap]; split
      · split <;> omega
      · omega
  | insertRange p xs =>
    have hp : p ≤ l.length := hv
    obtain ⟨hne, hs⟩ : l ≠ [] ∧ (l.length + xs.length < N ∨ N < l.length ∨ p = 0) := hs
    match h, hr with
    | .unset, hr => exact absurd hr hne
    | .arr s, hr =>
      have hz := hr.1.size_eq
      have hle := hr.1.size_le
      by_cases hf : xs.length < s.cap - s.size
      · obtain ⟨s', a, b, c⟩ := SVec.insertRange_ok (triv := triv) hr.1 hp xs
        rw [if_pos (by omega)] at b
        exact ⟨.arr s', by simp only [step, insertRange, hf, if_true]; rw [a]; rfl, b, by have := hr.2; omega⟩
      · have hp0 : p = 0 := by have := hr.2; omega
        subst hp0
        obtain ⟨v, a, b, c⟩ := toVector_ok hcan hr.1 (f + 2)
        have hpos := List.length_pos_iff.mpr hne
        obtain ⟨v', a', b', c', _⟩ := Vec.insertRange_ok (triv := triv) hcan (f := f) (xs := xs) b (p := 0) (by omega)
        refine ⟨.vec v', ?_, b', ?_⟩
        · simp only [step, insertRange, hf, if_false, a, Res.ok_bind, if_true, a']
        · rw [c']; split <;> omega
    | .vec v, hr =>
      obtain ⟨v', a', b', c', _⟩ := Vec.insertRange_ok (triv := triv) hcan (f := f) (xs := xs) hr.1 (p := p)
        (by rw [hr.1.2.1]; exact hp)
      refine ⟨.vec v', by simp only [step, insertRange, a', Res.ok_bind], b', ?_⟩
      have := hr.2
      rw [c']; split <;> omega
  | erase p =>
    have hp : p ≤ l.length := hv
    match h, hr with
    | .unset, hr =>
      have hr : l = [] := hr
      subst hr; exact ⟨.unset, rfl, by simp [HRep, apply]⟩
    | .arr s, hr =>
      obtain ⟨s', a, b, c⟩ := SVec.erase_ok (triv := triv) hr.1 hp
      obtain ⟨h', a', b'⟩ := shrinkArr_ok (N := N) b (by have := hr.2; omega)
      exact ⟨h', by simp only [step, erase, a, Res.ok_bind, a'], b'⟩
    | .vec v, hr =>
      obtain ⟨v', a, b, c, _⟩ := Vec.erase_ok (triv := triv) hr.1 (p := p) (by rw [hr.1.2.1]; exact hp)
      obtain ⟨h', a', b'⟩ := shrinkVec_ok (N := N) b (by have := hr.2; omega)
      exact ⟨h', by simp only [step, erase, a, Res.ok_bind, a'], b'⟩
  | eraseRange b e =>
    obtain ⟨hbe, he⟩ : b ≤ e ∧ e ≤ l.length := hv
    match h, hr with
    | .unset, hr =>
      have hr : l = [] := hr
      subst hr; exact ⟨.unset, rfl, by simp [HRep, apply]⟩
    | .arr s, hr =>
      obtain ⟨s', a, r, c⟩ := SVec.eraseRange_ok (triv := triv) hr.1 (b := b) (e := e) (by omega) he hs
      rw [if_pos hbe] at r
      obtain ⟨h', a', b'⟩ := shrinkArr_ok (N := N) r (by have := hr.2; omega)
      exact ⟨h', by simp only [step, eraseRange, a, Res.ok_bind, a'], b'⟩
    | .vec v, hr =>
      have hz := hr.1.2.1
      obtain ⟨v', a, r, c, _⟩ := Vec.eraseRange_ok (triv := triv) hr.1 hbe (by omega)
        (by
          have hs' : triv = true ∨ ¬ (b < e ∧ e < l.length) := hs
          rcases hs' with h | h
          · exact Or.inl h
          · omega)
      obtain ⟨h', a', b'⟩ := shrinkVec_ok (N := N) r (by have := hr.2; omega)
      exact ⟨h', by simp only [step, eraseRange, a, Res.ok_bind, a'], b'⟩
  | clean => exact ⟨_, rfl, SVec.rep_empty N, hE⟩
  | reset => exact ⟨_, rfl, rfl⟩

end HVec

/-- What an observer sees. -/
theorem hrep_observe {N : Nat} {h : HVec α} {l : List α} (hr : HRep N h l) :
    h.size = l.length ∧ (h.toList = .ok l ∨ (h = .unset ∧ l = [])) ∧ ∀ i (hi : i < l.length), h.at? i = .ok l[i] := by
  match h, hr with
  | .unset, hr =>
    have hr : l = [] := hr
    subst hr
    exact ⟨rfl, Or.inr ⟨rfl, rfl⟩, fun i hi => absurd hi (by simp)⟩
  | .arr s, hr =>
    have := rep_observe (v := s.toVec) hr.1
    exact ⟨hr.1.size_eq, Or.inl (SVec.rep_toList hr.1), this.2.2.2.2⟩
  | .vec v, hr =>
    have := rep_observe hr.1
    exact ⟨this.2.1, Or.inl this.1, this.2.2.2.2⟩

/-- C21: where the elements are after erasing from a container with heap storage: in the object itself exactly if fewer than `N` are left. -/
theorem C21_erase_storage (triv : Bool) (can : Nat → Bool) (N f : Nat) {v : Vec α} {l : List α} (hr : HRep N (.vec v) l) {p : Nat} (hp : p ≤ l.length) :
    ∃ h', HVec.step triv can N f (.vec v) (.erase p) = .ok h' ∧ h'.size = (l.take p ++ l.drop (p + 1)).length ∧
      ((∃ s, h' = .arr s) ↔ (l.take p ++ l.drop (p + 1)).length < N) := by
  obtain ⟨v', a, b, c, _⟩ := Vec.erase_ok (triv := triv) hr.1 (p := p) (by rw [hr.1.2.1]; exact hp)
  obtain ⟨h', a', b'⟩ := HVec.shrinkVec_ok (N := N) b (by have := hr.2; omega)
  refine ⟨h', by simp only [HVec.step, HVec.erase, a, Res.ok_bind, a'], (hrep_observe b').1, ?_⟩
  have hz := b.2.1
  unfold HVec.shrinkVec at a'
  by_cases hN : v'.size < N
  · rw [if_pos hN] at a'
    cases ht : HVec.toArray N v' with
    | ok s =>
      rw [ht] at a'
      have e : HVec.arr s = h' := by simpa using a'
      exact ⟨fun _ => by omega, fun _ => ⟨s, e.symm⟩⟩
    | ub => rw [ht] at a'; cases a'
    | loop => rw [ht] at a'; cases a'
  · rw [if_neg hN] at a'
    injection a' with a'
    subst a'
    exact ⟨fun ⟨s, hs⟩ => (nomatch hs), fun h => by omega⟩

/-- **C21_partial.** From a default-constructed container of any inline capacity, every history of supported calls (any
length, crossing between inline array and heap vector in both directions) completes, never touches illegal storage, and
the size, the elements by index and (once anything was stored) the iterated elements are those of the mathematical
sequence.  Missing: insertion into an empty container, insertion away from the front that leaves the inline array (both
refuted below), range erase in the middle for non-trivial types. -/
theorem C21_history_partial (triv : Bool) (can : Nat → Bool) (hcan : ∀ n, can n = true) (N : Nat) (ops : List (Op α))
    (hv : SafeHist triv N [] ops) (f : Nat) :
    ∃ h, runOps (HVec.step triv can N (f + 3)) (.unset : HVec α) ops = .ok h ∧ h.size = (HybSpec.run [] ops).length ∧
      (h.toList = .ok (HybSpec.run [] ops) ∨ (h = .unset ∧ HybSpec.run [] ops = [])) ∧
      ∀ i (hi : i < (HybSpec.run [] ops).length), h.at? i = .ok (HybSpec.run [] ops)[i] := by
  have key : ∀ (ops : List (Op α)) (h : HVec α) (l : List α), HRep N h l → SafeHist triv N l ops →
      ∃ h', runOps (HVec.step triv can N (f + 3)) h ops = .ok h' ∧ HRep N h' (HybSpec.run l ops) := by
    intro ops
    induction ops with
    | nil => intro h l hr _; exact ⟨h, rfl, hr⟩
    | cons o os ih =>
      intro h l hr ⟨h1, h2, h3⟩
      obtain ⟨h', a, b⟩ := step_ok hcan hr o h1 h2 f
      rw [runOps_cons_ok a]
      exact ih h' _ b h3
  obtain ⟨h, a, b⟩ := key ops .unset [] rfl hv
  exact ⟨h, a, hrep_observe b⟩

/-- A history with inline capacity 2 that moves to the heap, inserts there, and comes back. -/
example : SafeHist false 2 [] [Op.pushBack 1, .pushBack 2, .emplace 1 3, .insert 2 4, .insertRange 1 [5, 6], .erase 0, .eraseRange 1 5,
      .pushBack 7, .insert 0 8, .clean, .pushBack 9] ∧
    HybSpec.run [] [Op.pushBack 1, .pushBack 2, .emplace 1 3, .insert 2 4, .insertRange 1 [5, 6], .erase 0, .eraseRange 1 5,
      .pushBack 7, .insert 0 8] = [8, 5, 7] := by decide

/-- Pushing at most `N` elements keeps them in the inline array. -/
theorem push_stays_inline (triv : Bool) (can : Nat → Bool) (N f : Nat) (xs : List α) (hx : xs ≠ []) (hN : xs.length ≤ N) :
    ∃ s, runOps (HVec.step triv can N f) (.unset : HVec α) (xs.map Op.pushBack) = .ok (.arr s) ∧ SVec.Rep s xs ∧ s.cap = N := by
  have key : ∀ (ys : List α) (s : SVec α) (l : List α), SVec.Rep s l → s.cap = N → l.length + ys.length ≤ N →
      ∃ s', runOps (HVec.step triv can N f) (.arr s) (ys.map Op.pushBack) = .ok (.arr s') ∧ SVec.Rep s' (l ++ ys) ∧ s'.cap = N := by
    intro ys
    induction ys with
    | nil => intro s l h hc _; exact ⟨s, rfl, by simpa using h, hc⟩
    | cons y ys ih =>
      intro s l h hc hl
      simp only [List.length_cons] at hl
      have hz := h.size_eq
      obtain ⟨s1, a, b, c⟩ := SVec.pushBack_ok h y
      rw [if_pos (by omega)] at b
      obtain ⟨s2, a2, b2, c2⟩ := ih s1 (l ++ [y]) b (by omega) (by simp; omega)
      refine ⟨s2, ?_, by simpa using b2, c2⟩
      rw [List.map_cons, runOps_cons_ok (s' := .arr s1) ?_]
      · exact a2
      · simp only [HVec.step, HVec.pushBack, pushBackArr]
        rw [if_pos (by omega), a]; rfl
  cases xs with
  | nil => exact absurd rfl hx
  | cons x xs =>
    simp only [List.length_cons] at hN
    have hE : (SVec.empty N : SVec α).cap = N := by simp [SVec.cap, SVec.empty]
    obtain ⟨s1, a, b, c⟩ := SVec.pushBack_ok (SVec.rep_empty (α := α) N) x
    rw [hE, List.length_nil, if_pos (by omega)] at b
    obtain ⟨s2, a2, b2, c2⟩ := key xs s1 [x] (by simpa using b) (by omega) (by simp; omega)
    refine ⟨s2, ?_, by simpa using b2, c2⟩
    rw [List.map_cons, runOps_cons_ok (s' := .arr s1) ?_]
    · exact a2
    · simp only [HVec.step, HVec.pushBack, pushBackArr]
      rw [if_pos (by rw [hE]; simp [SVec.empty]; omega), a]; rfl

/-- **C21, violated.** Fill the inline array with any `N` elements, then insert anywhere but at the front: the iterator is
computed as `begin() - position`, outside the new vector. -/
theorem C21_insert_when_full_violated (triv : Bool) (can : Nat → Bool) (hcan : ∀ n, can n = true) (f : Nat) (xs : List α)
    (p : Nat) (hp : 0 < p) (hpl : p ≤ xs.length) (x : α) :
    ∃ h, runOps (HVec.step triv can xs.length (f + 3)) (.unset : HVec α) (xs.map Op.pushBack) = .ok h ∧
      HVec.step triv can xs.length (f + 3) h (.insert p x) = .ub := by
  obtain ⟨s, a, b, c⟩ := push_stays_inline triv can xs.length (f + 3) xs (by rintro rfl; simp at hpl; omega) (Nat.le_refl _)
  refine ⟨.arr s, a, ?_⟩
  have hz := b.size_eq
  obtain ⟨v, a', _⟩ := toVector_ok hcan b (f + 2)
  simp only [HVec.step, HVec.insert]
  rw [if_neg (by omega), a']
  simp only [Res.ok_bind]
  rw [if_neg (by omega)]

example : ∃ xs : List Nat, 0 < 2 ∧ 2 ≤ xs.length := ⟨[1, 2, 3], by decide, by decide⟩

/-- **C21, violated.** A range that exactly fills the inline array, inserted anywhere but at the front. -/
theorem C21_insertRange_violated (triv : Bool) (can : Nat → Bool) (hcan : ∀ n, can n = true) (N f : Nat) (xs ys : List α)
    (p : Nat) (hp : 0 < p) (hpl : p ≤ xs.length) (hx : xs.length ≤ N) (hN : N ≤ xs.length + ys.length) :
    ∃ h, runOps (HVec.step triv can N (f + 3)) (.unset : HVec α) (xs.map Op.pushBack) = .ok h ∧
      HVec.step triv can N (f + 3) h (.insertRange p ys) = .ub := by
  obtain ⟨s, a, b, c⟩ := push_stays_inline triv can N (f + 3) xs (by rintro rfl; simp at hpl; omega) hx
  refine ⟨.arr s, a, ?_⟩
  have hz := b.size_eq
  obtain ⟨v, a', _⟩ := toVector_ok hcan b (f + 2)
  simp only [HVec.step, HVec.insertRange]
  rw [if_neg (by omega), a']
  simp only [Res.ok_bind]
  rw [if_neg (by omega)]

example : ∃ (xs ys : List Nat) (N : Nat), 0 < 1 ∧ 1 ≤ xs.length ∧ xs.length ≤ N ∧ N ≤ xs.length + ys.length :=
  ⟨[1], [2], 2, by decide, by decide, by decide, by decide⟩

/-- **C21, violated.** On an empty container (default constructed, or emptied by `erase`): inserting or emplacing one
element is undefined, inserting a range loses the range, iterating is undefined. -/
theorem C21_empty_violated (triv : Bool) (can : Nat → Bool) (N f : Nat) (x : α) (xs : List α) (p : Nat) :
    HVec.step triv can N f (.unset : HVec α) (.insert p x) = .ub ∧
    HVec.step triv can N f (.unset : HVec α) (.emplace p x) = .ub ∧
    (∃ h, HVec.step triv can N f (.unset : HVec α) (.insertRange 0 xs) = .ok h ∧ h.size = 0) ∧
    (HVec.unset : HVec α).toList = .ub :=
  ⟨rfl, rfl, ⟨.unset, rfl, rfl⟩, rfl⟩

/-- The empty state is reached by erasing the last element of any inline container. -/
theorem C21_erase_to_empty (triv : Bool) (can : Nat → Bool) (N f : Nat) (hN : 0 < N) (x : α) :
    runOps (HVec.step triv can N f) (.unset : HVec α) [.pushBack x, .erase 0] = .ok .unset := by
  obtain ⟨s, a, b, c⟩ := push_stays_inline triv can N f [x] (by simp) (by simp; omega)
  have a' : runOps (HVec.step triv can N f) (.unset : HVec α) [.pushBack x] = .ok (.arr s) := a
  rw [show ([.pushBack x, .erase 0] : List (Op α)) = [.pushBack x] ++ [.erase 0] from rfl, runOps_append a']
  obtain ⟨s', a2, b2, c2⟩ := SVec.erase_ok (triv := triv) b (p := 0) (by simp)
  have hz := b2.size_eq
  simp only [List.take_zero] at hz
  simp [runOps, HVec.step, HVec.erase, a2, shrinkArr, hz]

/-- **C21, violated.** Inline capacity 1: `clean()`, insert a one-element range, append: the append never returns. -/
theorem C21_unit_capacity_diverges (triv : Bool) (can : Nat → Bool) (hcan : ∀ n, can n = true) (x y : α) (f : Nat) :
    ∃ h, runOps (HVec.step triv can 1 (f + 3)) (.unset : HVec α) [.clean, .insertRange 0 [x]] = .ok h ∧
      HVec.step triv can 1 (f + 3) h (.pushBack y) = .loop := by
  refine ⟨.vec ⟨[.live x], 1, 1⟩, ?_, ?_⟩
  · simp [runOps, HVec.step, HVec.clean, HVec.insertRange, SVec.empty, SVec.cap, toVector, SVec.toList, Cells.getRange,
      Vec.pushBackList, Vec.empty, Vec.reserve, hcan, Vec.insertRange, Vec.pushBack, Cells.construct]
  · simp only [HVec.step, HVec.pushBack]
    rw [Vec.pushBack_stuck rfl rfl]; rfl

namespace Flame
open HVec HybSpec
example := C21_erase_storage true (fun _ => true) 2 4 (v := (⟨[.live 7, .live 8, .raw], 3, 2⟩ : Vec Nat)) (l := [7, 8])
  ⟨⟨rfl, rfl, [.raw], rfl⟩, by decide⟩ (p := 1) (by decide)
example := C21_erase_to_empty true (fun _ => true) 3 4 (by decide) 7
example := C21_unit_capacity_diverges true (fun _ => true) (fun _ => rfl) 7 8 4
end Flame

end Flame
