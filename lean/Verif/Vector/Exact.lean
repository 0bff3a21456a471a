import Verif.Vector.Props
import Verif.Array.Props

/-!
# C01 and C05, exactly: which histories of a `Vector` and of an `Array` in vector mode leave what they should
-/

namespace Flame
open Vec
variable {α : Type u}

namespace VecSpec

/-- The capacity after a call on a vector of `n` elements and capacity `c`. -/
def nextRoom (n c : Nat) : Op α → Nat
  | .pushBack _ | .insert _ _ | .emplace _ _ => if n = c then (if c = 0 then 8 else c * 3 / 2) else c
  | .insertRange _ xs => if xs.length = 0 ∨ xs.length + n ≤ c then c else c + xs.length
  | .reserve k => if c < k then k else c
  | _ => c

/-- The calls that do what they should on a vector holding `l` with capacity `c`. -/
def good (triv : Bool) (l : List α) (c : Nat) : Op α → Prop
  | .pushBack _ | .insert _ _ | .emplace _ _ => ¬ (l.length = 1 ∧ c = 1)
  | .eraseRange b e => triv = true ∨ ¬ (b < e ∧ e < l.length)
  | _ => True

instance (triv : Bool) (l : List α) (c : Nat) (o : Op α) : Decidable (good triv l c o) := by
  cases o <;> unfold good <;> infer_instance

/-- Positions inside, at every call. -/
def Inside (l : List α) : List (Op α) → Prop
  | [] => True
  | o :: os => valid l o ∧ Inside (apply l o) os

/-- Every call of the history is a good one for the contents and capacity at that moment. -/
def GoodHist (triv : Bool) (l : List α) (c : Nat) : List (Op α) → Prop
  | [] => True
  | o :: os => good triv l c o ∧ GoodHist triv (apply l o) (nextRoom l.length c o) os

instance decInside : (l : List α) → (os : List (Op α)) → Decidable (Inside l os)
  | _, [] => isTrue trivial
  | l, o :: os =>
    have := decInside (apply l o) os
    inferInstanceAs (Decidable (_ ∧ _))

instance decGoodHist (triv : Bool) : (l : List α) → (c : Nat) → (os : List (Op α)) → Decidable (GoodHist triv l c os)
  | _, _, [] => isTrue trivial
  | l, c, o :: os =>
    have := decGoodHist triv (apply l o) (nextRoom l.length c o) os
    inferInstanceAs (Decidable (_ ∧ _))

/-- The capacity after a history. -/
def roomAfter (l : List α) (c : Nat) : List (Op α) → Nat
  | [] => c
  | o :: os => roomAfter (apply l o) (nextRoom l.length c o) os

end VecSpec
open VecSpec

/-- A good call: contents and capacity afterwards. -/
theorem vec_good {triv : Bool} {can : Nat → Bool} (hcan : ∀ n, can n = true) {v : Vec α} {l : List α} (h : Rep v l)
    (o : Op α) (hv : valid l o) (hg : good triv l v.cap o) (f : Nat) :
    ∃ v', step triv can (f + 3) v o = .ok v' ∧ Rep v' (apply l o) ∧ v'.cap = nextRoom l.length v.cap o := by
  have hsz := h.2.1
  have hroom : ∀ {w : Vec α}, w.cap = (if v.size = v.cap then v.nextCap else v.cap) →
      w.cap = (if l.length = v.cap then (if v.cap = 0 then 8 else v.cap * 3 / 2) else v.cap) := by
    intro w hw
    rw [hw, hsz]; unfold nextCap
    by_cases h0 : v.cap = 0 <;> simp [h0]
  cases o with
  | pushBack x =>
    replace hg : ¬ (l.length = 1 ∧ v.cap = 1) := hg
    obtain ⟨v', a, b, c, _⟩ := pushBack_ok hcan (f := f + 1) h (by omega) x
    exact ⟨v', a, b, hroom c⟩
  | popBack => obtain ⟨v', a, b, c, _⟩ := popBack_ok (triv := triv) h; exact ⟨v', a, b, c⟩
  | insert p x =>
    replace hg : ¬ (l.length = 1 ∧ v.cap = 1) := hg
    obtain ⟨v', a, _, b, c, _⟩ := insert_ok (triv := triv) hcan (f := f) h x (p := p) (by rw [hsz]; exact hv) (by omega)
    exact ⟨v', a, b, hroom c⟩
  | emplace p x =>
    replace hg : ¬ (l.length = 1 ∧ v.cap = 1) := hg
    obtain ⟨v', _, a, b, c, _⟩ := insert_ok (triv := triv) hcan (f := f) h x (p := p) (by rw [hsz]; exact hv) (by omega)
    exact ⟨v', a, b, hroom c⟩
  | insertRange p xs =>
    obtain ⟨v', a, b, c, _⟩ := insertRange_ok (triv := triv) hcan (f := f) (xs := xs) h (p := p) (by rw [hsz]; exact hv)
    exact ⟨v', a, b, by rw [c, hsz]; rfl⟩
  | erase p =>
    obtain ⟨v', a, b, c, _⟩ := erase_ok (triv := triv) h (p := p) (by rw [hsz]; exact hv)
    exact ⟨v', a, b, c⟩
  | eraseRange b e =>
    have hv' : b ≤ l.length ∧ e ≤ l.length := hv
    replace hg : triv = true ∨ ¬ (b < e ∧ e < l.length) := hg
    by_cases hbe : b ≤ e
    · obtain ⟨v', a, r, c, _⟩ := eraseRange_ok (triv := triv) h hbe (by omega) (by rcases hg with h | h; exact Or.inl h; omega)
      exact ⟨v', a, by simpa [apply, hbe] using r, c⟩
    · refine ⟨v, ?_, by simpa [apply, hbe] using h, rfl⟩
      simp only [step, eraseRange]
      rw [if_neg (by omega), if_pos (by omega)]
  | reserve n =>
    refine ⟨_, rfl, reserve_rep h n, ?_⟩
    rw [reserve_cap n (hcan n)]; simp only [nextRoom]; split <;> omega
  | clean => obtain ⟨v', a, b, c, _⟩ := clean_ok (triv := triv) h; exact ⟨v', a, b, c⟩

/-- Any other call with its places inside does not return, or touches what it must not. -/
theorem vec_bad {triv : Bool} {can : Nat → Bool} {v : Vec α} {l : List α} (h : Rep v l) (o : Op α) (hv : valid l o)
    (hg : ¬ good triv l v.cap o) (f : Nat) : step triv can f v o = .loop ∨ step triv can f v o = .ub := by
  have hsz := h.2.1
  cases o with
  | pushBack x =>
    replace hg : l.length = 1 ∧ v.cap = 1 := Classical.not_not.mp hg
    exact Or.inl (pushBack_stuck (by omega) hg.2 x f)
  | insert p x =>
    replace hg : l.length = 1 ∧ v.cap = 1 := Classical.not_not.mp hg
    have hp : p ≤ l.length := hv
    exact Or.inl (insert_stuck (by omega) hg.2 (by omega) x f).1
  | emplace p x =>
    replace hg : l.length = 1 ∧ v.cap = 1 := Classical.not_not.mp hg
    have hp : p ≤ l.length := hv
    exact Or.inl (insert_stuck (by omega) hg.2 (by omega) x f).2
  | eraseRange b e =>
    have hn : triv ≠ true ∧ ¬ ¬ (b < e ∧ e < l.length) := ⟨fun x => hg (Or.inl x), fun x => hg (Or.inr x)⟩
    have hbe := Classical.not_not.mp hn.2
    have ht : triv = false := by cases triv <;> simp_all
    subst ht
    exact Or.inr (C01_eraseRange_nontrivial_ub h hbe.1 hbe.2 can f)
  | popBack => exact absurd trivial hg
  | insertRange p xs => exact absurd trivial hg
  | erase p => exact absurd trivial hg
  | reserve n => exact absurd trivial hg
  | clean => exact absurd trivial hg

/-- **C01, exactly.**  From any vector holding `l`: a history with its places inside runs through if and only if no call of it adds an element one by one to a
vector of size and capacity 1 or, for elements that are not trivial, erases a range from the middle.  It then leaves the sequence it should and the
capacity that can be computed beforehand; otherwise it never returns or is undefined. -/
theorem C01_history_exact {triv : Bool} {can : Nat → Bool} (hcan : ∀ n, can n = true) (ops : List (Op α)) (f : Nat) :
    ∀ {v : Vec α} {l : List α}, Rep v l → Inside l ops →
    ((∃ v', runOps (step triv can (f + 3)) v ops = .ok v') ↔ GoodHist triv l v.cap ops) ∧
    ∀ v', runOps (step triv can (f + 3)) v ops = .ok v' →
      v'.toList = .ok (VecSpec.run l ops) ∧ v'.size = (VecSpec.run l ops).length ∧ v'.cap = roomAfter l v.cap ops := by
  induction ops with
  | nil =>
    intro v l h _
    refine ⟨⟨fun _ => trivial, fun _ => ⟨v, rfl⟩⟩, fun v' e => ?_⟩
    cases e
    obtain ⟨a, b, _⟩ := rep_observe h
    exact ⟨a, b, rfl⟩
  | cons o os ih =>
    intro v l h hv
    by_cases hg : good triv l v.cap o
    · obtain ⟨v1, e, hr, hc⟩ := vec_good (triv := triv) hcan h o hv.1 hg f
      rw [runOps_cons_ok e]
      obtain ⟨i1, i2⟩ := ih hr hv.2
      rw [hc] at i1
      refine ⟨⟨fun hx => ⟨hg, i1.mp hx⟩, fun hx => i1.mpr hx.2⟩, fun v' e' => ?_⟩
      obtain ⟨j1, j2, j3⟩ := i2 v' e'
      exact ⟨j1, j2, by rw [j3, hc]; rfl⟩
    · have hbad : ∀ v', runOps (step triv can (f + 3)) v (o :: os) ≠ .ok v' := by
        intro v' e'
        rcases vec_bad (can := can) h o hv.1 hg (f + 3) with e | e <;> simp [runOps, e] at e'
      exact ⟨⟨fun ⟨v', e'⟩ => absurd e' (hbad v'), fun hx => absurd hx.1 hg⟩, fun v' e' => absurd e' (hbad v')⟩

/-- A history through capacity 1 that is all right: the vector leaves it by `reserve`. -/
example : Inside ([] : List Nat) [.reserve 1, .pushBack 7, .reserve 4, .pushBack 8, .eraseRange 0 2, .insertRange 0 [1, 2, 3, 4, 5]] ∧
    GoodHist false ([] : List Nat) 0 [.reserve 1, .pushBack 7, .reserve 4, .pushBack 8, .eraseRange 0 2, .insertRange 0 [1, 2, 3, 4, 5]] ∧
    roomAfter ([] : List Nat) 0 [.reserve 1, .pushBack 7, .reserve 4, .pushBack 8, .eraseRange 0 2, .insertRange 0 [1, 2, 3, 4, 5]] = 9 := by decide
/-- And one that is not. -/
example : Inside ([] : List Nat) [.insertRange 0 [1], .insert 0 2] ∧ ¬ GoodHist true ([] : List Nat) 0 [.insertRange 0 [1], .insert 0 2] := by decide

/-! ## C05 -/

namespace ArrSpec

def Inside (n : Nat) (l : List α) : List (SVec.Op α) → Prop
  | [] => True
  | o :: os => valid l o ∧ Inside n (apply n l o) os

/-- No range is erased from the middle. -/
def NoMiddle (n : Nat) (l : List α) : List (SVec.Op α) → Prop
  | [] => True
  | o :: os => ¬ erasesMiddle l o ∧ NoMiddle n (apply n l o) os

end ArrSpec

/-- **C05, exactly.**  A history with its places inside on an `Array<T, n, false>`, however many of its elements do not fit, runs through if and only if the
elements are trivial or no range is erased from the middle; it then leaves the contents of a list bounded by `n`, and otherwise it is undefined. -/
theorem C05_history_exact {triv : Bool} {n : Nat} (ops : List (SVec.Op α)) : ∀ {s : SVec α} {l : List α}, SVec.Rep s l → s.cap = n →
    ArrSpec.Inside n l ops →
    ((triv = true ∨ ArrSpec.NoMiddle n l ops) → ∃ s', runOps (SVec.step triv) s ops = .ok s' ∧ s'.toList = .ok (ArrSpec.run n l ops) ∧ s'.cap = n) ∧
    (¬ (triv = true ∨ ArrSpec.NoMiddle n l ops) → runOps (SVec.step triv) s ops = .ub) := by
  induction ops with
  | nil => intro s l h hc _; exact ⟨fun _ => ⟨s, rfl, SVec.rep_toList h, hc⟩, fun hx => absurd (Or.inr trivial) hx⟩
  | cons o os ih =>
    intro s l h hc hv
    by_cases hg : triv = true ∨ ¬ ArrSpec.erasesMiddle l o
    · obtain ⟨s1, e, hr, hc1⟩ := C05_step h o hv.1 hg
      rw [hc] at hr hc1
      rw [runOps_cons_ok e]
      obtain ⟨i1, i2⟩ := ih hr hc1 hv.2
      refine ⟨fun hx => i1 ?_, fun hx => i2 fun hy => hx ?_⟩
      · rcases hx with hx | hx
        · exact Or.inl hx
        · exact Or.inr hx.2
      · rcases hg with hg | hg
        · exact Or.inl hg
        · rcases hy with hy | hy
          · exact Or.inl hy
          · exact Or.inr ⟨hg, hy⟩
    · have ht : triv = false := by cases triv <;> simp_all
      have hm : ArrSpec.erasesMiddle l o := Classical.byContradiction fun hx => hg (Or.inr hx)
      have e : SVec.step triv s o = .ub := by
        cases o with
        | eraseRange b e => subst ht; exact C05_eraseRange_nontrivial_ub h hm.1 hm.2
        | _ => exact hm.elim
      refine ⟨fun hx => ?_, fun _ => by simp [runOps, e]⟩
      rcases hx with hx | hx
      · rw [ht] at hx; cases hx
      · exact absurd hm hx.1

example : ArrSpec.Inside 3 [] [SVec.Op.appendRange [1, 2, 3, 4], .eraseRange 0 1] ∧ ¬ ArrSpec.NoMiddle 3 [] [SVec.Op.appendRange [1, 2, 3, 4], .eraseRange 0 1] ∧
    ArrSpec.NoMiddle 3 [] [SVec.Op.appendRange [1, 2, 3, 4], .eraseRange 1 3] := by
  simp [ArrSpec.Inside, ArrSpec.NoMiddle, ArrSpec.valid, ArrSpec.erasesMiddle, ArrSpec.apply]

end Flame
