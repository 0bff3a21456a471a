import Verif.Hybrid.CopiesProps
import Verif.Array.Props

/-!
# C21, exactly: which calls of a `HybridVector` do what they should, and where the elements are afterwards
-/

namespace Flame
open HVec
variable {α : Type}

namespace HybSpec

/-- Where the elements are: nowhere yet, in the object, or on the heap with room for `c`. -/
inductive Store where
  | none
  | inline
  | heap (c : Nat)
  deriving DecidableEq, Repr

/-- The room on the heap after one more element. -/
def grow (c n : Nat) : Nat := if n = c then (if c = 0 then 8 else c * 3 / 2) else c

/-- The room on the heap after `k` more elements at once. -/
def growBy (c n k : Nat) : Nat := if k = 0 ∨ k + n ≤ c then c else c + k

/-- The number of elements and where they are after taking elements out. -/
def shrink (N n : Nat) : Store → Store
  | .none => .none
  | .inline => if n = 0 then .none else .inline
  | .heap c => if n < N then .inline else .heap c

/-- Where the elements are after one more element. -/
def more (N n : Nat) : Store → Store
  | .heap c => .heap (grow c n)
  | _ => if n < N then .inline else .heap (grow (2 * n) n)

/-- Where the elements are after a call on a container holding `l`. -/
def next (N : Nat) (l : List α) (st : Store) : Op α → Store
  | .pushBack _ | .insert _ _ | .emplace _ _ => more N l.length st
  | .insertRange _ xs => match st with
    | .none => .none
    | .inline => if l.length + xs.length < N then .inline else .heap (growBy (2 * l.length) l.length xs.length)
    | .heap c => .heap (growBy c l.length xs.length)
  | .erase p => shrink N (l.take p ++ l.drop (p + 1)).length st
  | .eraseRange b e => shrink N (l.take b ++ l.drop e).length st
  | .popBack => st
  | .clean => .inline
  | .reset => .none

/-- The heap has room for one element only, and it is taken. -/
def stuck (l : List α) : Store → Prop
  | .heap c => l.length = 1 ∧ c = 1
  | _ => False

/-- The calls that do what they should. -/
def good (triv : Bool) (N : Nat) (l : List α) (st : Store) : Op α → Prop
  | .pushBack _ => ¬ stuck l st
  | .insert p _ => ¬ stuck l st ∧ st ≠ .none ∧ (st = .inline → l.length < N ∨ p = 0)
  | .emplace _ _ => ¬ stuck l st ∧ st ≠ .none
  | .insertRange p xs => (st = .none → xs = []) ∧ (st = .inline → l.length + xs.length < N ∨ p = 0)
  | .eraseRange b e => triv = true ∨ ¬ (b < e ∧ e < l.length)
  | _ => True

def GoodHist (triv : Bool) (N : Nat) (l : List α) (st : Store) : List (Op α) → Prop
  | [] => True
  | o :: os => good triv N l st o ∧ GoodHist triv N (apply l o) (next N l st o) os

def ValidHist (l : List α) : List (Op α) → Prop
  | [] => True
  | o :: os => valid l o ∧ ValidHist (apply l o) os

end HybSpec

open HybSpec

namespace HVec

/-- `h` holds `l` at `st`. -/
def Stored (N : Nat) (l : List α) : Store → HVec α → Prop
  | .none, h => h = .unset ∧ l = []
  | .inline, h => ∃ s, h = .arr s ∧ SVec.Rep s l ∧ s.cap = N
  | .heap c, h => ∃ v, h = .vec v ∧ Vec.Rep v l ∧ v.cap = c

theorem Stored.holds {N : Nat} {l : List α} {st : Store} {h : HVec α} (hs : Stored N l st h) : Holds N h l := by
  cases st with
  | none => obtain ⟨rfl, e⟩ := hs; exact e
  | inline => obtain ⟨s, rfl, a, b⟩ := hs; exact ⟨a, b⟩
  | heap c => obtain ⟨v, rfl, a, b⟩ := hs; exact a

theorem nextCap_grow {v : Vec α} {l : List α} (hr : Vec.Rep v l) : (if v.size = v.cap then v.nextCap else v.cap) = grow v.cap l.length := by
  unfold grow Vec.nextCap
  rw [hr.2.1]
  by_cases h : v.cap = 0 <;> simp [h]

theorem shrinkArr_at {N : Nat} {s : SVec α} {l : List α} (h : SVec.Rep s l) (hc : s.cap = N) :
    ∃ h', shrinkArr s = .ok h' ∧ Stored N l (shrink N l.length .inline) h' := by
  have := h.size_eq
  unfold shrinkArr shrink
  by_cases h0 : l.length = 0
  · rw [if_pos (by omega), if_pos h0]; exact ⟨_, rfl, rfl, List.eq_nil_of_length_eq_zero h0⟩
  · rw [if_neg (by omega), if_neg h0]; exact ⟨_, rfl, s, rfl, h, hc⟩

theorem shrinkVec_at {N : Nat} {v : Vec α} {l : List α} (h : Vec.Rep v l) :
    ∃ h', shrinkVec N v = .ok h' ∧ Stored N l (shrink N l.length (.heap v.cap)) h' := by
  have := h.2.1
  unfold shrinkVec
  simp only [shrink]
  by_cases h0 : l.length < N
  · rw [if_pos (by omega), if_pos h0]
    obtain ⟨s, a, b, c⟩ := toArray_ok h (N := N) (by omega)
    exact ⟨.arr s, by rw [a]; rfl, s, rfl, b, c⟩
  · rw [if_neg (by omega), if_neg h0]; exact ⟨_, rfl, v, rfl, h, rfl⟩

theorem pushBackArr_at {can : Nat → Bool} (hcan : ∀ n, can n = true) {N : Nat} {s : SVec α} {l : List α} (h : SVec.Rep s l)
    (hc : s.cap = N) (x : α) (f : Nat) : ∃ h', pushBackArr can (f + 3) s x = .ok h' ∧ Stored N (l ++ [x]) (more N l.length .inline) h' := by
  have hs := h.size_eq
  unfold pushBackArr more
  by_cases h0 : l.length < N
  · rw [if_pos (by omega)]
    obtain ⟨s', a, b, c⟩ := SVec.pushBack_ok h x
    rw [if_pos (by omega)] at b
    exact ⟨.arr s', by rw [a]; rfl, by simp only [h0, if_true]; exact ⟨s', rfl, b, by omega⟩⟩
  · rw [if_neg (by omega)]
    obtain ⟨v, a, b, c⟩ := toVector_ok hcan h (f + 2)
    obtain ⟨v', a', b', c', _⟩ := Vec.pushBack_ok hcan (f := f + 1) b (by omega) x
    refine ⟨.vec v', by rw [a]; simp only [Res.ok_bind]; rw [a']; rfl, ?_⟩
    simp only [h0, if_false]
    exact ⟨v', rfl, b', by rw [c', nextCap_grow b, c]⟩

/-- A good call: the sequence and the place of its elements. -/
theorem step_good {triv : Bool} {can : Nat → Bool} (hcan : ∀ n, can n = true) {N : Nat} {st : Store} {h : HVec α} {l : List α}
    (hr : Stored N l st h) (o : Op α) (hv : valid l o) (hg : good triv N l st o) (f : Nat) :
    ∃ h', step triv can N (f + 3) h o = .ok h' ∧ Stored N (apply l o) (next N l st o) h' := by
  have hE : (SVec.empty N : SVec α).cap = N := by simp [SVec.cap, SVec.empty]
  cases o with
  | pushBack x =>
    cases st with
    | none => obtain ⟨rfl, rfl⟩ := hr; exact pushBackArr_at hcan (SVec.rep_empty N) hE x f
    | inline => obtain ⟨s, rfl, a, b⟩ := hr; exact pushBackArr_at hcan a b x f
    | heap c =>
      obtain ⟨v, rfl, a, b⟩ := hr
      have hz := a.2.1
      replace hg : ¬ (l.length = 1 ∧ c = 1) := hg
      obtain ⟨v', a', b', c', _⟩ := Vec.pushBack_ok hcan (f := f + 1) a (by omega) x
      exact ⟨.vec v', by simp only [step, pushBack]; rw [a']; rfl, v', rfl, b', by rw [c', nextCap_grow a, b]⟩
  | popBack =>
    cases st with
    | none => obtain ⟨rfl, rfl⟩ := hr; exact ⟨.unset, rfl, rfl, rfl⟩
    | inline =>
      obtain ⟨s, rfl, a, b⟩ := hr
      obtain ⟨s', a', b', c'⟩ := SVec.popBack_ok (triv := triv) a
      exact ⟨.arr s', by simp only [step, popBack]; rw [a']; rfl, s', rfl, b', by omega⟩
    | heap c =>
      obtain ⟨v, rfl, a, b⟩ := hr
      obtain ⟨v', a', b', c', _⟩ := Vec.popBack_ok (triv := triv) a
      exact ⟨.vec v', by simp only [step, popBack]; rw [a']; rfl, v', rfl, b', by omega⟩
  | insert p x =>
    obtain ⟨g1, g2, g3⟩ := hg
    replace hv : p ≤ l.length := hv
    cases st with
    | none => exact absurd rfl g2
    | inline =>
      obtain ⟨s, rfl, a, b⟩ := hr
      have hz := a.size_eq
      by_cases h0 : l.length < N
      · obtain ⟨s', a', _, b', c'⟩ := SVec.insert_ok (triv := triv) a hv x
        rw [if_pos (by omega)] at b'
        refine ⟨.arr s', by simp only [step, insert]; rw [if_pos (by omega), a']; rfl, ?_⟩
        simp only [next, more, h0, if_true]
        exact ⟨s', rfl, b', by omega⟩
      · have hp0 : p = 0 := by rcases g3 rfl with g | g; exact absurd g h0; exact g
        subst hp0
        obtain ⟨v, a', b', c'⟩ := toVector_ok hcan a (f + 2)
        obtain ⟨v', a2, _, b2, c2, _⟩ := Vec.insert_ok (triv := triv) hcan (f := f) b' x (p := 0) (by omega) (by omega)
        refine ⟨.vec v', by simp only [step, insert]; rw [if_neg (by omega), a']; simp only [Res.ok_bind, if_true, a2], ?_⟩
        simp only [next, more, h0, if_false]
        exact ⟨v', rfl, b2, by rw [c2, nextCap_grow b', c']⟩
    | heap c =>
      obtain ⟨v, rfl, a, b⟩ := hr
      have hz := a.2.1
      replace g1 : ¬ (l.length = 1 ∧ c = 1) := g1
      obtain ⟨v', a2, _, b2, c2, _⟩ := Vec.insert_ok (triv := triv) hcan (f := f) a x (p := p) (by omega) (by omega)
      exact ⟨.vec v', by simp only [step, insert]; rw [a2]; rfl, v', rfl, b2, by rw [c2, nextCap_grow a, b]⟩
  | emplace p x =>
    obtain ⟨g1, g2⟩ := hg
    replace hv : p ≤ l.length := hv
    cases st with
    | none => exact absurd rfl g2
    | inline =>
      obtain ⟨s, rfl, a, b⟩ := hr
      have hz := a.size_eq
      have hle := a.size_le
      by_cases h0 : l.length < N
      · obtain ⟨s', _, a', b', c'⟩ := SVec.insert_ok (triv := triv) a hv x
        rw [if_pos (by omega)] at b'
        refine ⟨.arr s', by simp only [step, emplace]; rw [if_neg (by omega), a']; rfl, ?_⟩
        simp only [next, more, h0, if_true]
        exact ⟨s', rfl, b', by omega⟩
      · obtain ⟨v, a', b', c'⟩ := toVector_ok hcan a (f + 2)
        have hz' := b'.2.1
        obtain ⟨v', _, a2, b2, c2, _⟩ := Vec.insert_ok (triv := triv) hcan (f := f) b' x (p := p) (by omega) (by omega)
        refine ⟨.vec v', by simp only [step, emplace]; rw [if_pos (by omega), a']; simp only [Res.ok_bind, a2], ?_⟩
        simp only [next, more, h0, if_false]
        exact ⟨v', rfl, b2, by rw [c2, nextCap_grow b', c']⟩
    | heap c =>
      obtain ⟨v, rfl, a, b⟩ := hr
      have hz := a.2.1
      replace g1 : ¬ (l.length = 1 ∧ c = 1) := g1
      obtain ⟨v', _, a2, b2, c2, _⟩ := Vec.insert_ok (triv := triv) hcan (f := f) a x (p := p) (by omega) (by omega)
      exact ⟨.vec v', by simp only [step, emplace]; rw [a2]; rfl, v', rfl, b2, by rw [c2, nextCap_grow a, b]⟩
  | insertRange p xs =>
    obtain ⟨g1, g2⟩ := hg
    replace hv : p ≤ l.length := hv
    cases st with
    | none => obtain ⟨rfl, rfl⟩ := hr; rw [g1 rfl]; exact ⟨.unset, rfl, rfl, by simp [apply]⟩
    | inline =>
      obtain ⟨s, rfl, a, b⟩ := hr
      have hz := a.size_eq
      by_cases h0 : l.length + xs.length < N
      · obtain ⟨s', a', b', c'⟩ := SVec.insertRange_ok (triv := triv) a hv xs
        rw [if_pos (by omega)] at b'
        refine ⟨.arr s', by simp only [step, insertRange]; rw [if_pos (by omega), a']; rfl, ?_⟩
        simp only [next, h0, if_true]
        exact ⟨s', rfl, b', by omega⟩
      · have hp0 : p = 0 := by rcases g2 rfl with g | g; exact absurd g h0; exact g
        subst hp0
        obtain ⟨v, a', b', c'⟩ := toVector_ok hcan a (f + 2)
        have hz' := b'.2.1
        obtain ⟨v', a2, b2, c2, _⟩ := Vec.insertRange_ok (triv := triv) hcan (f := f) (xs := xs) b' (p := 0) (by omega)
        refine ⟨.vec v', by simp only [step, insertRange]; rw [if_neg (by omega), a']; simp only [Res.ok_bind, if_true, a2], ?_⟩
        simp only [next, h0, if_false]
        exact ⟨v', rfl, b2, by rw [c2, hz', c']; rfl⟩
    | heap c =>
      obtain ⟨v, rfl, a, b⟩ := hr
      have hz := a.2.1
      obtain ⟨v', a2, b2, c2, _⟩ := Vec.insertRange_ok (triv := triv) hcan (f := f) (xs := xs) a (p := p) (by omega)
      exact ⟨.vec v', by simp only [step, insertRange]; rw [a2]; rfl, v', rfl, b2, by rw [c2, hz, b]; rfl⟩
  | erase p =>
    replace hv : p ≤ l.length := hv
    cases st with
    | none => obtain ⟨rfl, rfl⟩ := hr; exact ⟨.unset, rfl, rfl, by simp [apply]⟩
    | inline =>
      obtain ⟨s, rfl, a, b⟩ := hr
      obtain ⟨s', a', b', c'⟩ := SVec.erase_ok (triv := triv) a hv
      obtain ⟨h', a2, b2⟩ := shrinkArr_at (N := N) b' (by omega)
      exact ⟨h', by simp only [step, erase, a', Res.ok_bind, a2], b2⟩
    | heap c =>
      obtain ⟨v, rfl, a, b⟩ := hr
      have hz := a.2.1
      obtain ⟨v', a', b', c', _⟩ := Vec.erase_ok (triv := triv) a (p := p) (by omega)
      obtain ⟨h', a2, b2⟩ := shrinkVec_at (N := N) b'
      exact ⟨h', by simp only [step, erase, a', Res.ok_bind, a2], by rw [c', b] at b2; exact b2⟩
  | eraseRange i j =>
    obtain ⟨hij, hj⟩ : i ≤ j ∧ j ≤ l.length := hv
    replace hg : triv = true ∨ ¬ (i < j ∧ j < l.length) := hg
    cases st with
    | none => obtain ⟨rfl, rfl⟩ := hr; exact ⟨.unset, rfl, rfl, by simp [apply]⟩
    | inline =>
      obtain ⟨s, rfl, a, b⟩ := hr
      obtain ⟨s', a', b', c'⟩ := SVec.eraseRange_ok (triv := triv) a (b := i) (e := j) (by omega) hj hg
      rw [if_pos hij] at b'
      obtain ⟨h', a2, b2⟩ := shrinkArr_at (N := N) b' (by omega)
      exact ⟨h', by simp only [step, eraseRange, a', Res.ok_bind, a2], b2⟩
    | heap c =>
      obtain ⟨v, rfl, a, b⟩ := hr
      have hz := a.2.1
      obtain ⟨v', a', b', c', _⟩ := Vec.eraseRange_ok (triv := triv) a hij (by omega)
        (by rcases hg with h | h; exact Or.inl h; omega)
      obtain ⟨h', a2, b2⟩ := shrinkVec_at (N := N) b'
      exact ⟨h', by simp only [step, eraseRange, a', Res.ok_bind, a2], by rw [c', b] at b2; exact b2⟩
  | clean => exact ⟨_, rfl, _, rfl, SVec.rep_empty N, hE⟩
  | reset => exact ⟨_, rfl, rfl, rfl⟩

/-- Any other call does not return with what it should leave. -/
theorem step_bad {triv : Bool} {can : Nat → Bool} (hcan : ∀ n, can n = true) {N : Nat} {st : Store} {h : HVec α} {l : List α}
    (hr : Stored N l st h) (o : Op α) (hv : valid l o) (hg : ¬ good triv N l st o) (f : Nat) :
    step triv can N (f + 3) h o = .ub ∨ step triv can N (f + 3) h o = .loop ∨
      ∃ h', step triv can N (f + 3) h o = .ok h' ∧ h'.size ≠ (apply l o).length := by
  cases o with
  | pushBack x =>
    replace hg : stuck l st := Classical.byContradiction hg
    cases st with
    | none => exact hg.elim
    | inline => exact hg.elim
    | heap c =>
      obtain ⟨v, rfl, a, b⟩ := hr
      obtain ⟨g1, g2⟩ := hg
      have hz := a.2.1
      refine Or.inr (Or.inl ?_)
      simp only [step, pushBack, Vec.pushBack_stuck (can := can) (show v.size = 1 by omega) (show v.cap = 1 by omega)]
      rfl
  | popBack => exact absurd trivial hg
  | insert p x =>
    replace hv : p ≤ l.length := hv
    cases st with
    | none => obtain ⟨rfl, rfl⟩ := hr; exact Or.inl rfl
    | inline =>
      obtain ⟨s, rfl, a, b⟩ := hr
      have hz := a.size_eq
      have hg' : ¬ (l.length < N ∨ p = 0) := fun e => hg ⟨id, by simp, fun _ => e⟩
      obtain ⟨v, a', _, _⟩ := toVector_ok hcan a (f + 2)
      left
      simp only [step, insert]
      rw [if_neg (by omega), a']
      simp only [Res.ok_bind]
      rw [if_neg (by omega)]
    | heap c =>
      obtain ⟨v, rfl, a, b⟩ := hr
      have hz := a.2.1
      have hg' : l.length = 1 ∧ c = 1 := Classical.byContradiction fun e => hg ⟨e, by simp, by simp⟩
      right; left
      simp only [step, insert, (Vec.insert_stuck (triv := triv) (can := can) (show v.size = 1 by omega) (show v.cap = 1 by omega)
        (show p ≤ 1 by omega) x (f + 3)).1]
      rfl
  | emplace p x =>
    replace hv : p ≤ l.length := hv
    cases st with
    | none => obtain ⟨rfl, rfl⟩ := hr; exact Or.inl rfl
    | inline => exact absurd ⟨id, by simp⟩ hg
    | heap c =>
      obtain ⟨v, rfl, a, b⟩ := hr
      have hz := a.2.1
      have hg' : l.length = 1 ∧ c = 1 := Classical.byContradiction fun e => hg ⟨e, by simp⟩
      right; left
      simp only [step, emplace, (Vec.insert_stuck (triv := triv) (can := can) (show v.size = 1 by omega) (show v.cap = 1 by omega)
        (show p ≤ 1 by omega) x (f + 3)).2]
      rfl
  | insertRange p xs =>
    replace hv : p ≤ l.length := hv
    cases st with
    | none =>
      obtain ⟨rfl, rfl⟩ := hr
      have hx : xs ≠ [] := fun e => hg ⟨fun _ => e, by simp⟩
      refine Or.inr (Or.inr ⟨.unset, rfl, ?_⟩)
      have := List.length_pos_iff.mpr hx
      simp only [apply, HVec.size, List.take_nil, List.nil_append, List.drop_nil, List.append_nil]
      omega
    | inline =>
      obtain ⟨s, rfl, a, b⟩ := hr
      have hz := a.size_eq
      have hg' : ¬ (l.length + xs.length < N ∨ p = 0) := fun e => hg ⟨by simp, fun _ => e⟩
      obtain ⟨v, a', _, _⟩ := toVector_ok hcan a (f + 2)
      left
      simp only [step, insertRange]
      rw [if_neg (by omega), a']
      simp only [Res.ok_bind]
      rw [if_neg (by omega)]
    | heap c => exact absurd ⟨by simp, by simp⟩ hg
  | erase p => exact absurd trivial hg
  | eraseRange i j =>
    have hg' : triv = false ∧ i < j ∧ j < l.length := by
      refine ⟨by cases triv; rfl; exact absurd (Or.inl rfl) hg, ?_⟩
      exact Classical.byContradiction fun e => hg (Or.inr e)
    obtain ⟨rfl, hij, hj⟩ := hg'
    left
    cases st with
    | none => obtain ⟨rfl, rfl⟩ := hr; simp at hj
    | inline =>
      obtain ⟨s, rfl, a, b⟩ := hr
      simp only [step, eraseRange, C05_eraseRange_nontrivial_ub a hij hj]
      rfl
    | heap c =>
      obtain ⟨v, rfl, a, b⟩ := hr
      simp only [step, eraseRange, Vec.eraseRange_ub a hij (by rw [a.2.1]; exact hj)]
      rfl
  | clean => exact absurd trivial hg
  | reset => exact absurd trivial hg

end HVec

/-- **C21, exactly, for one call.**  A call on a container holding `l` at `st` returns with a container showing the sequence it should hold if and only if it
is a good one; then the elements are where `next` says. -/
theorem C21_step_exact {triv : Bool} {can : Nat → Bool} (hcan : ∀ n, can n = true) {N : Nat} {st : Store} {h : HVec α} {l : List α}
    (hr : Stored N l st h) (o : Op α) (hv : valid l o) (f : Nat) :
    ((∃ h', HVec.step triv can N (f + 3) h o = .ok h' ∧ h'.Shows (apply l o)) ↔ good triv N l st o) ∧
    (∀ h', HVec.step triv can N (f + 3) h o = .ok h' → good triv N l st o → Stored N (apply l o) (next N l st o) h') := by
  refine ⟨⟨fun ⟨h', e, hs⟩ => ?_, fun hg => ?_⟩, fun h' e hg => ?_⟩
  · refine Classical.byContradiction fun hg => ?_
    rcases step_bad hcan hr o hv hg f with e' | e' | ⟨h2, e', hn⟩
    · rw [e'] at e; cases e
    · rw [e'] at e; cases e
    · rw [e'] at e; cases e; exact hn hs.1
  · obtain ⟨h', e, hs⟩ := step_good hcan hr o hv hg f
    exact ⟨h', e, hs.holds.shows⟩
  · obtain ⟨h2, e', hs⟩ := step_good hcan hr o hv hg f
    rw [e'] at e; cases e; exact hs

theorem C21_history_exact_aux {triv : Bool} {can : Nat → Bool} (hcan : ∀ n, can n = true) {N : Nat} (ops : List (Op α)) (f : Nat) :
    ∀ {st : Store} {h : HVec α} {l : List α}, Stored N l st h → ValidHist l ops →
    ((∀ n ≤ ops.length, ∃ h', runOps (HVec.step triv can N (f + 3)) h (ops.take n) = .ok h' ∧ h'.Shows (HybSpec.run l (ops.take n))) ↔
      GoodHist triv N l st ops) := by
  induction ops with
  | nil =>
    intro st h l hr _
    refine ⟨fun _ => trivial, fun _ n _ => ⟨h, by simp [runOps], ?_⟩⟩
    simpa [HybSpec.run] using hr.holds.shows
  | cons o os ih =>
    intro st h l hr hv
    constructor
    · intro hall
      have hg : good triv N l st o := by
        obtain ⟨h1, a, b⟩ := hall 1 (by simp)
        refine ((C21_step_exact hcan hr o hv.1 f).1).mp ⟨h1, ?_, by simpa [HybSpec.run] using b⟩
        simp only [List.take_succ_cons, List.take_zero, runOps] at a
        cases e : HVec.step triv can N (f + 3) h o with
        | ok h2 => rw [e] at a; exact a
        | ub => rw [e] at a; cases a
        | loop => rw [e] at a; cases a
      obtain ⟨h', e, hs⟩ := step_good hcan hr o hv.1 hg f
      refine ⟨hg, (ih hs hv.2).mp fun n hn => ?_⟩
      obtain ⟨h2, a, b⟩ := hall (n + 1) (by simpa using hn)
      rw [List.take_succ_cons, runOps_cons_ok e] at a
      exact ⟨h2, a, by simpa [HybSpec.run] using b⟩
    · intro ⟨hg, hgs⟩ n hn
      obtain ⟨h', e, hs⟩ := step_good hcan hr o hv.1 hg f
      cases n with
      | zero => exact ⟨h, by simp [runOps], by simpa [HybSpec.run] using hr.holds.shows⟩
      | succ n =>
        obtain ⟨h2, a, b⟩ := (ih hs hv.2).mpr hgs n (by simpa using hn)
        exact ⟨h2, by rw [List.take_succ_cons, runOps_cons_ok e]; exact a, by simpa [HybSpec.run] using b⟩

/-- **C21, exactly, over histories.**  From the default-constructed container: every call of a history leaves the sequence it should if and only if each of
them is a good one for the contents and the place of the elements at that moment. -/
theorem C21_history_exact {triv : Bool} {can : Nat → Bool} (hcan : ∀ n, can n = true) (N : Nat) (ops : List (Op α)) (hv : ValidHist [] ops) (f : Nat) :
    (∀ n ≤ ops.length, ∃ h', runOps (HVec.step triv can N (f + 3)) (.unset : HVec α) (ops.take n) = .ok h' ∧
      h'.Shows (HybSpec.run [] (ops.take n))) ↔ GoodHist triv N [] .none ops :=
  C21_history_exact_aux hcan ops f (st := .none) ⟨rfl, rfl⟩ hv

/-- A good history through all three places. -/
example : ValidHist [] [Op.insertRange 0 [], .pushBack 1, .pushBack 2, .insert 0 3, .emplace 1 4, .erase 0, .erase 0, .erase 0, .erase 0, .clean, .insertRange 0 [5]] ∧
    GoodHist false 2 [] .none [Op.insertRange 0 [], .pushBack 1, .pushBack 2, .insert 0 3, .emplace 1 4, .erase 0, .erase 0, .erase 0, .erase 0, .clean,
      .insertRange 0 [5]] := by
  simp [ValidHist, GoodHist, valid, good, apply, next, more, shrink, grow, growBy, stuck]

/-- Not a good one: the third element goes into a full inline array of two, not at its front. -/
example : ValidHist [] [Op.pushBack 1, .pushBack 2, .insert 1 3] ∧ ¬ GoodHist true 2 [] .none [Op.pushBack 1, .pushBack 2, .insert 1 3] := by
  simp [ValidHist, GoodHist, valid, good, apply, next, more, stuck]

namespace Flame
open HVec HybSpec
example := C21_step_exact (triv := false) (can := fun _ => true) (fun _ => rfl) (N := 2) (st := .inline) (h := .arr ⟨[.live 1, .live 2], 2⟩) (l := [1, 2])
  ⟨_, rfl, ⟨rfl, rfl, [], rfl⟩, rfl⟩ (.insert 1 7) (by simp [valid]) 4
end Flame

end Flame
