import Verif.Hybrid.TallyLemmas
import Verif.Array.TallyProps

/-!
# Every object a `HybridVector` constructs is destroyed, or counted (C177)

The specification follows only the length of the sequence and whether it lives in allocated memory.
-/

namespace Flame
open HVec HybSpec
open Vec (Bal)
variable {α : Type}

namespace HybSpec

/-- Do the elements live in allocated memory after the call?  (`N`: inline capacity, `heap`: before the call, `n`: number of
elements before the call.)  Additions leave a full inline array; only the erasing calls come back. -/
def heapAfter (N : Nat) (heap : Bool) (n : Nat) : Op α → Bool
  | .pushBack _ | .insert _ _ | .emplace _ _ => heap || n == N
  | .popBack => heap
  | .insertRange _ xs => heap || decide (N ≤ n + xs.length)
  | .erase p => heap && decide (N ≤ if p < n then n - 1 else n)
  | .eraseRange b e => heap && decide (N ≤ n - (e - b))
  | .clean | .reset => false

/-- Objects lost by one call: an inner `erase` forgets one; an inner `emplace` in allocated memory constructs over one. -/
def lost (N : Nat) (heap : Bool) (n : Nat) : Op α → Nat
  | .erase p => if p + 1 < n then 1 else 0
  | .emplace p _ => if (heap || n == N) && decide (p < n) then 1 else 0
  | _ => 0

/-- Objects lost by a history. -/
def lostOver (N : Nat) (heap : Bool) (l : List α) : List (Op α) → Nat
  | [] => 0
  | o :: os => lost N heap l.length o + lostOver N (heapAfter N heap l.length o) (apply l o) os

end HybSpec

namespace HVec

theorem hsize_eq {N : Nat} {h : HVec α} {l : List α} (hr : HRep N h l) : h.size = l.length := by
  match h, hr with
  | .unset, hr =>
    have hr : l = [] := hr
    subst hr; rfl
  | .arr s, hr => exact hr.1.size_eq
  | .vec v, hr => exact hr.1.2.1

theorem pushBackArrT_ok {triv : Bool} {can re : Nat → Bool} {N f : Nat} {s : SVec α} {l : List α} (hs : SVec.Rep s l) (hc : s.cap = N) {x : α}
    {h' : HVec α} (h : pushBackArr can f s x = .ok h') {t : Tally} {k : Nat} (hb : Bal t s.size k) :
    ∃ t', pushBackArrT triv can re f s x t = .ok (h', t') ∧ Bal t' h'.size k ∧ h'.isVec = (l.length == N) := by
  have hz := hs.size_eq
  have hle := hs.size_le
  unfold pushBackArr at h
  split at h
  · rename_i hc1
    obtain ⟨s', h1, h2⟩ := Res.bind_eq_ok.1 h
    simp only [Res.ok.injEq] at h2; subst h2
    obtain ⟨t', a, b⟩ := SVec.pushBackT_ok h1 hb
    refine ⟨t', by rw [pushBackArrT, if_pos hc1, a]; rfl, b, ?_⟩
    simp only [isVec]; symm; simp; omega
  · rename_i hc1
    obtain ⟨v, h1, h2⟩ := Res.bind_eq_ok.1 h
    obtain ⟨v', h3, h4⟩ := Res.bind_eq_ok.1 h2
    simp only [Res.ok.injEq] at h4; subst h4
    obtain ⟨t1, a1, b1⟩ := toVectorT_ok (triv := triv) (re := re) hs h1 hb
    obtain ⟨t2, a2, b2⟩ := Vec.pushBackT_ok (re := re) h3 b1
    refine ⟨t2, ?_, b2, ?_⟩
    · rw [pushBackArrT, if_neg hc1, a1]
      simp only [Res.ok_bind, a2]
    · simp only [isVec]; symm; simp; omega

/-- One call: the counting functions do what the plain ones do, the balance changes by what the call loses, and the elements are where
the specification says. -/
theorem hybStepT_bal {triv : Bool} {can re : Nat → Bool} (hcan : ∀ n, can n = true) {N f : Nat} {h h' : HVec α} {l : List α} (hr : HRep N h l)
    {o : Op α} (hv : valid l o) (hsf : safe triv N l o) (hs : step triv can N (f + 3) h o = .ok h')
    {t : Tally} {k : Nat} (hb : Bal t h.size k) :
    ∃ t', stepT triv can re N (f + 3) (h, t) o = .ok (h', t') ∧ Bal t' h'.size (k + HybSpec.lost N h.isVec l.length o) ∧
      h'.isVec = heapAfter N h.isVec l.length o := by
  have hz := hsize_eq hr
  have hE : (SVec.empty N : SVec α).cap = N := by simp [SVec.cap, SVec.empty]
  cases o with
  | pushBack x =>
    match h, hr with
    | .unset, hr =>
      have hr : l = [] := hr
      subst hr
      obtain ⟨t', a, b, c⟩ := pushBackArrT_ok (triv := triv) (re := re) (SVec.rep_empty N) hE hs (t := t) (k := k) hb
      exact ⟨t', a, b, by simpa [heapAfter, isVec] using c⟩
    | .arr s, hr =>
      obtain ⟨t', a, b, c⟩ := pushBackArrT_ok (triv := triv) (re := re) hr.1 hr.2 hs (t := t) (k := k) hb
      exact ⟨t', a, b, by simpa [heapAfter, isVec] using c⟩
    | .vec v, hr =>
      simp only [step, pushBack] at hs
      obtain ⟨v', h1, h2⟩ := Res.bind_eq_ok.1 hs
      simp only [Res.ok.injEq] at h2; subst h2
      obtain ⟨t', a, b⟩ := Vec.pushBackT_ok (re := re) h1 hb
      exact ⟨t', by simp only [stepT, pushBackT, a, Res.ok_bind], b, rfl⟩
  | popBack =>
    match h, hr with
    | .unset, hr =>
      simp only [step, popBack, Res.ok.injEq] at hs; subst hs
      exact ⟨t, rfl, hb, rfl⟩
    | .arr s, hr =>
      simp only [step, popBack] at hs
      obtain ⟨v', h1, h2⟩ := Res.bind_eq_ok.1 hs
      simp only [Res.ok.injEq] at h2; subst h2
      obtain ⟨t', a, b⟩ := SVec.popBackT_ok h1 hb
      exact ⟨t', by simp only [stepT, popBackT, a, Res.ok_bind], b, rfl⟩
    | .vec v, hr =>
      simp only [step, popBack] at hs
      obtain ⟨v', h1, h2⟩ := Res.bind_eq_ok.1 hs
      simp only [Res.ok.injEq] at h2; subst h2
      obtain ⟨t', a, b⟩ := Vec.popBackT_ok h1 hb
      exact ⟨t', by simp only [stepT, popBackT, a, Res.ok_bind], b, rfl⟩
  | insert p x =>
    match h, hr with
    | .unset, hr => simp [step, insert] at hs
    | .arr s, hr =>
      have hle := hr.1.size_le
      have hsz := hr.1.size_eq
      have hcp := hr.2
      simp only [step, insert] at hs
      split at hs
      · rename_i hc1
        obtain ⟨s', h1, h2⟩ := Res.bind_eq_ok.1 hs
        simp only [Res.ok.injEq] at h2; subst h2
        obtain ⟨t', a, b⟩ := SVec.insertT_ok h1 hb
        refine ⟨t', by simp only [stepT, insertT, if_pos hc1, a, Res.ok_bind], b, ?_⟩
        simp only [isVec, heapAfter, Bool.false_or]; symm; simp; omega
      · rename_i hc1
        obtain ⟨v, h1, h2⟩ := Res.bind_eq_ok.1 hs
        split at h2
        · rename_i hp
          obtain ⟨v', h3, h4⟩ := Res.bind_eq_ok.1 h2
          simp only [Res.ok.injEq] at h4; subst h4
          obtain ⟨t1, a1, b1⟩ := toVectorT_ok (triv := triv) (re := re) hr.1 h1 hb
          obtain ⟨t2, a2, b2⟩ := Vec.insertT_ok (re := re) h3 b1
          refine ⟨t2, by simp only [stepT, insertT, if_neg hc1, a1, Res.ok_bind, if_pos hp, a2], b2, ?_⟩
          simp only [isVec, heapAfter, Bool.false_or]; symm; simp; omega
        · simp at h2
    | .vec v, hr =>
      simp only [step, insert] at hs
      obtain ⟨v', h1, h2⟩ := Res.bind_eq_ok.1 hs
      simp only [Res.ok.injEq] at h2; subst h2
      obtain ⟨t', a, b⟩ := Vec.insertT_ok (re := re) h1 hb
      exact ⟨t', by simp only [stepT, insertT, a, Res.ok_bind], b, rfl⟩
  | emplace p x =>
    match h, hr with
    | .unset, hr => simp [step, emplace] at hs
    | .arr s, hr =>
      have hle := hr.1.size_le
      have hsz := hr.1.size_eq
      have hcp := hr.2
      simp only [step, emplace] at hs
      split at hs
      · rename_i hc1
        obtain ⟨v, h1, h2⟩ := Res.bind_eq_ok.1 hs
        obtain ⟨v', h3, h4⟩ := Res.bind_eq_ok.1 h2
        simp only [Res.ok.injEq] at h4; subst h4
        obtain ⟨t1, a1, b1⟩ := toVectorT_ok (triv := triv) (re := re) hr.1 h1 hb
        obtain ⟨w, e1, e2, _⟩ := toVector_ok hcan hr.1 (f + 2)
        rw [h1] at e1
        simp only [Res.ok.injEq] at e1; subst e1
        obtain ⟨t2, a2, b2⟩ := Vec.emplaceT_ok (re := re) h3 b1
        refine ⟨t2, by simp only [stepT, emplaceT, if_pos hc1, a1, Res.ok_bind, a2], ?_, ?_⟩
        · have hN : l.length = N := by omega
          simp only [HybSpec.lost, isVec, hN, beq_self_eq_true, Bool.or_true, Bool.true_and, decide_eq_true_eq]
          rw [e2.2.1, hN] at b2; exact b2
        · simp only [isVec, heapAfter, Bool.false_or]; symm; simp; omega
      · rename_i hc1
        obtain ⟨s', h1, h2⟩ := Res.bind_eq_ok.1 hs
        simp only [Res.ok.injEq] at h2; subst h2
        obtain ⟨t', a, b⟩ := SVec.emplaceT_ok h1 hb
        refine ⟨t', by simp only [stepT, emplaceT, if_neg hc1, a, Res.ok_bind], ?_, ?_⟩
        · have hN : (l.length == N) = false := by simp; omega
          simp only [HybSpec.lost, isVec, hN, Bool.or_false, Bool.false_and]; exact b
        · simp only [isVec, heapAfter, Bool.false_or]; symm; simp; omega
    | .vec v, hr =>
      have hsz := hr.1.2.1
      simp only [step, emplace] at hs
      obtain ⟨v', h1, h2⟩ := Res.bind_eq_ok.1 hs
      simp only [Res.ok.injEq] at h2; subst h2
      obtain ⟨t', a, b⟩ := Vec.emplaceT_ok (re := re) h1 hb
      refine ⟨t', by simp only [stepT, emplaceT, a, Res.ok_bind], ?_, rfl⟩
      simp only [HybSpec.lost, isVec, Bool.true_or, Bool.true_and, decide_eq_true_eq, ← hsz]; exact b
  | insertRange p xs =>
    match h, hr with
    | .unset, hr => exact absurd hr hsf.1
    | .arr s, hr =>
      have hle := hr.1.size_le
      have hsz := hr.1.size_eq
      have hcp := hr.2
      simp only [step, insertRange] at hs
      split at hs
      · rename_i hc1
        obtain ⟨s', h1, h2⟩ := Res.bind_eq_ok.1 hs
        simp only [Res.ok.injEq] at h2; subst h2
        obtain ⟨t', a, b⟩ := SVec.insertRangeT_ok h1 hb
        refine ⟨t', by simp only [stepT, insertRangeT, if_pos hc1, a, Res.ok_bind], b, ?_⟩
        simp only [isVec, heapAfter, Bool.false_or]; symm; simp; omega
      · rename_i hc1
        obtain ⟨v, h1, h2⟩ := Res.bind_eq_ok.1 hs
        split at h2
        · rename_i hp
          obtain ⟨v', h3, h4⟩ := Res.bind_eq_ok.1 h2
          simp only [Res.ok.injEq] at h4; subst h4
          obtain ⟨t1, a1, b1⟩ := toVectorT_ok (triv := triv) (re := re) hr.1 h1 hb
          obtain ⟨t2, a2, b2⟩ := Vec.insertRangeT_ok (re := re) h3 b1
          refine ⟨t2, by simp only [stepT, insertRangeT, if_neg hc1, a1, Res.ok_bind, if_pos hp, a2], b2, ?_⟩
          simp only [isVec, heapAfter, Bool.false_or]; symm; simp; omega
        · simp at h2
    | .vec v, hr =>
      simp only [step, insertRange] at hs
      obtain ⟨v', h1, h2⟩ := Res.bind_eq_ok.1 hs
      simp only [Res.ok.injEq] at h2; subst h2
      obtain ⟨t', a, b⟩ := Vec.insertRangeT_ok (re := re) h1 hb
      exact ⟨t', by simp only [stepT, insertRangeT, a, Res.ok_bind], b, rfl⟩
  | erase p =>
    have hp : p ≤ l.length := hv
    match h, hr with
    | .unset, hr =>
      have hr : l = [] := hr
      subst hr
      simp only [step, erase, Res.ok.injEq] at hs; subst hs
      exact ⟨t, rfl, hb, rfl⟩
    | .arr s, hr =>
      have hsz := hr.1.size_eq
      simp only [step, erase] at hs
      obtain ⟨s', h1, h2⟩ := Res.bind_eq_ok.1 hs
      obtain ⟨s2, e1, e2, _⟩ := SVec.erase_ok (triv := triv) hr.1 hp
      rw [h1] at e1
      simp only [Res.ok.injEq] at e1; subst e1
      obtain ⟨t1, a1, b1⟩ := SVec.eraseT_ok h1 hb
      obtain ⟨t2, a2, b2, c2⟩ := shrinkArrT_ok (triv := triv) e2 h2 b1
      refine ⟨t2, by simp only [stepT, eraseT, a1, Res.ok_bind, a2], ?_, by simpa [heapAfter, isVec] using c2⟩
      simp only [HybSpec.lost, ← hsz]; exact b2
    | .vec v, hr =>
      have hsz := hr.1.2.1
      simp only [step, erase] at hs
      obtain ⟨s', h1, h2⟩ := Res.bind_eq_ok.1 hs
      obtain ⟨s2, e1, e2, _⟩ := Vec.erase_ok (triv := triv) hr.1 (p := p) (by omega)
      rw [h1] at e1
      simp only [Res.ok.injEq] at e1; subst e1
      obtain ⟨t1, a1, b1⟩ := Vec.eraseT_ok h1 hb
      obtain ⟨t2, a2, b2, c2⟩ := shrinkVecT_ok (triv := triv) e2 h2 b1
      refine ⟨t2, by simp only [stepT, eraseT, a1, Res.ok_bind, a2], ?_, ?_⟩
      · simp only [HybSpec.lost, ← hsz]; exact b2
      · rw [c2, e2.2.1]
        simp only [heapAfter, isVec, Bool.true_and, List.length_append, List.length_take, List.length_drop]
        congr 2
        split <;> omega
  | eraseRange b e =>
    obtain ⟨hbe, hel⟩ : b ≤ e ∧ e ≤ l.length := hv
    have ht : triv = true ∨ ¬ (b < e ∧ e < l.length) := hsf
    match h, hr with
    | .unset, hr =>
      simp only [step, eraseRange, Res.ok.injEq] at hs; subst hs
      exact ⟨t, rfl, hb, rfl⟩
    | .arr s, hr =>
      have hsz := hr.1.size_eq
      simp only [step, eraseRange] at hs
      obtain ⟨s', h1, h2⟩ := Res.bind_eq_ok.1 hs
      obtain ⟨s2, e1, e2, _⟩ := SVec.eraseRange_ok (triv := triv) hr.1 (b := b) (e := e) (by omega) hel ht
      rw [h1] at e1
      simp only [Res.ok.injEq] at e1; subst e1
      obtain ⟨t1, a1, b1⟩ := SVec.eraseRangeT_ok h1 hb
      obtain ⟨t2, a2, b2, c2⟩ := shrinkArrT_ok (triv := triv) e2 h2 b1
      exact ⟨t2, by simp only [stepT, eraseRangeT, a1, Res.ok_bind, a2], b2, by simpa [heapAfter, isVec] using c2⟩
    | .vec v, hr =>
      have hsz := hr.1.2.1
      simp only [step, eraseRange] at hs
      obtain ⟨s', h1, h2⟩ := Res.bind_eq_ok.1 hs
      obtain ⟨s2, e1, e2, _⟩ := Vec.eraseRange_ok (triv := triv) hr.1 hbe (by omega)
        (by rcases ht with ht | ht
            · exact Or.inl ht
            · right; omega)
      rw [h1] at e1
      simp only [Res.ok.injEq] at e1; subst e1
      obtain ⟨t1, a1, b1⟩ := Vec.eraseRangeT_ok h1 hb
      obtain ⟨t2, a2, b2, c2⟩ := shrinkVecT_ok (triv := triv) e2 h2 b1
      refine ⟨t2, by simp only [stepT, eraseRangeT, a1, Res.ok_bind, a2], b2, ?_⟩
      rw [c2, e2.2.1]
      simp only [heapAfter, isVec, Bool.true_and, List.length_append, List.length_take, List.length_drop]
      congr 2
      omega
  | clean =>
    simp only [step, clean, Res.ok.injEq] at hs; subst hs
    obtain ⟨t', a, b⟩ := resetT_bal (triv := triv) hr (t := t) (n := 0) (k := k) (by simpa using hb)
    exact ⟨t', by simp only [stepT, cleanT, a, Res.ok_bind], b, rfl⟩
  | reset =>
    simp only [step, reset, Res.ok.injEq] at hs; subst hs
    obtain ⟨t', a, b⟩ := resetT_bal (triv := triv) hr (t := t) (n := 0) (k := k) (by simpa using hb)
    exact ⟨t', a, b, rfl⟩

end HVec

/-- **C177, exactly**: over any supported history of calls on a `HybridVector` of any inline capacity, and the destruction at its end, the
objects constructed are those destroyed plus one for every `erase` of an inner element and one for every `emplace` before an existing
element made in allocated memory; switching the storage loses nothing. -/
theorem C177_exact {triv : Bool} {can re : Nat → Bool} (hcan : ∀ n, can n = true) {N : Nat} (ops : List (Op α)) (hv : SafeHist triv N [] ops)
    (f : Nat) :
    ∃ h t t', runOps (stepT triv can re N (f + 3)) ((.unset : HVec α), ⟨0, 0⟩) ops = .ok (h, t) ∧
      h.size = (HybSpec.run [] ops).length ∧ destructT triv (h, t) = .ok t' ∧
      t.made = t.ended + h.size + HybSpec.lostOver N false [] ops ∧ t'.made = t'.ended + HybSpec.lostOver N false [] ops := by
  have key : ∀ (ops : List (Op α)) (h : HVec α) (l : List α) (t : Tally) (k : Nat), HRep N h l → SafeHist triv N l ops → Bal t h.size k →
      ∃ h' t', runOps (stepT triv can re N (f + 3)) (h, t) ops = .ok (h', t') ∧ HRep N h' (HybSpec.run l ops) ∧
        Bal t' h'.size (k + HybSpec.lostOver N h.isVec l ops) := by
    intro ops
    induction ops with
    | nil => intro h l t k hr _ hb; exact ⟨h, t, rfl, hr, hb⟩
    | cons o os ih =>
      intro h l t k hr ⟨hv1, hv2, hv3⟩ hb
      obtain ⟨h', a, b⟩ := step_ok hcan hr o hv1 hv2 f
      obtain ⟨t1, a1, b1, c1⟩ := hybStepT_bal (re := re) hcan hr hv1 hv2 a hb
      obtain ⟨h2, t2, a2, b2, c2⟩ := ih h' _ t1 _ b hv3 b1
      refine ⟨h2, t2, by rw [runOps_cons_ok a1]; exact a2, b2, ?_⟩
      rw [Nat.add_assoc, c1] at c2; exact c2
  obtain ⟨h, t, a, b, c⟩ := key ops .unset [] ⟨0, 0⟩ 0 rfl hv rfl
  obtain ⟨t', d, e⟩ := resetT_bal (triv := triv) b (t := t) (n := 0) (by simpa using c)
  refine ⟨h, t, t', a, hsize_eq b, by simp only [destructT, d], ?_, ?_⟩
  · simpa [Bal, isVec] using c
  · simpa [Bal, isVec] using e

/-- Inline capacity 2: three pushes (the third moves to allocated memory), an emplace and an erase in the middle, then two erases at the
end, which come back to the inline array: 10 objects constructed, 2 never destroyed. -/
example : SafeHist false 2 [] [Op.pushBack 1, .pushBack 2, .pushBack 3, .emplace 0 4, .erase 1, .erase 2, .erase 1] ∧
    HybSpec.lostOver 2 false [] [Op.pushBack 1, .pushBack 2, .pushBack 3, .emplace 0 4, .erase 1, .erase 2, .erase 1] = 2 ∧
    (runOps (stepT false (fun _ => true) (fun _ => true) 2 9) ((.unset : HVec Nat), ⟨0, 0⟩)
      [Op.pushBack 1, .pushBack 2, .pushBack 3, .emplace 0 4, .erase 1, .erase 2, .erase 1] >>= destructT false) = .ok ⟨10, 8⟩ := by
  refine ⟨by decide, by decide, by decide⟩

theorem lostOver_append {N : Nat} (os : List (Op α)) (o : Op α) : ∀ (heap : Bool) (l : List α),
    HybSpec.lostOver N heap l os ≤ HybSpec.lostOver N heap l (os ++ [o]) ∧
    ((∃ p, o = .erase p ∧ p + 1 < (HybSpec.run l os).length) →
      HybSpec.lostOver N heap l (os ++ [o]) = HybSpec.lostOver N heap l os + 1) := by
  induction os with
  | nil =>
    intro heap l
    refine ⟨by simp [HybSpec.lostOver], ?_⟩
    rintro ⟨p, rfl, hp⟩
    have hp' : p + 1 < l.length := hp
    simp [HybSpec.lostOver, HybSpec.lost, hp']
  | cons o' os ih =>
    intro heap l
    obtain ⟨h1, h2⟩ := ih (heapAfter N heap l.length o') (apply l o')
    refine ⟨by simp only [List.cons_append, HybSpec.lostOver]; omega, fun h => ?_⟩
    simp only [List.cons_append, HybSpec.lostOver, h2 h]; omega

/-- **C177 violated**: after any supported history, whatever the storage, erasing an inner element loses an object: one more than the
history itself is never destroyed. -/
theorem C177_erase_violated {triv : Bool} {can re : Nat → Bool} (hcan : ∀ n, can n = true) {N : Nat} (ops : List (Op α)) {p : Nat}
    (hv : SafeHist triv N [] (ops ++ [.erase p])) (hp : p + 1 < (HybSpec.run [] ops).length) (f : Nat) :
    ∃ h t t', runOps (stepT triv can re N (f + 3)) ((.unset : HVec α), ⟨0, 0⟩) (ops ++ [.erase p]) = .ok (h, t) ∧
      destructT triv (h, t) = .ok t' ∧ t'.made = t'.ended + HybSpec.lostOver N false [] ops + 1 := by
  obtain ⟨h, t, t', a, _, b, _, d⟩ := C177_exact (re := re) hcan (ops ++ [.erase p]) hv f
  rw [(lostOver_append ops (.erase p) false []).2 ⟨p, rfl, hp⟩] at d
  exact ⟨h, t, t', a, b, by omega⟩

example : SafeHist false 4 [] ([Op.pushBack 1, .pushBack 2] ++ [.erase 0]) ∧ 0 + 1 < (HybSpec.run [] [Op.pushBack 1, .pushBack 2]).length := by decide

/-- Calls that can lose an object. -/
def HybSpec.mayLose : Op α → Bool
  | .erase _ | .emplace _ _ => true
  | _ => false

/-- **C177 (partial)**: a supported history without `erase(it)` and `emplace(it, …)` destroys everything it constructs, however often
the storage is switched. -/
theorem C177_balanced_partial {triv : Bool} {can re : Nat → Bool} (hcan : ∀ n, can n = true) {N : Nat} (ops : List (Op α))
    (hv : SafeHist triv N [] ops) (hn : ∀ o ∈ ops, HybSpec.mayLose o = false) (f : Nat) :
    ∃ h t t', runOps (stepT triv can re N (f + 3)) ((.unset : HVec α), ⟨0, 0⟩) ops = .ok (h, t) ∧ destructT triv (h, t) = .ok t' ∧
      t'.made = t'.ended := by
  have key : ∀ (ops : List (Op α)), (∀ o ∈ ops, HybSpec.mayLose o = false) → ∀ heap l, HybSpec.lostOver N heap l ops = 0 := by
    intro ops
    induction ops with
    | nil => intro _ _ _; rfl
    | cons o os ih =>
      intro h heap l
      have ho := h o (by simp)
      have : HybSpec.lost N heap l.length o = 0 := by
        cases o <;> first | rfl | simp [HybSpec.mayLose] at ho
      simp only [HybSpec.lostOver, this, ih (fun o ho => h o (by simp [ho])), Nat.add_zero]
  obtain ⟨h, t, t', a, _, b, _, d⟩ := C177_exact (re := re) hcan ops hv f
  rw [key ops hn] at d
  exact ⟨h, t, t', a, b, by omega⟩

example : SafeHist false 2 [] [Op.pushBack 1, .insert 0 2, .insert 0 3, .eraseRange 1 3, .pushBack 4] ∧
    (∀ o ∈ [Op.pushBack 1, .insert 0 2, .insert 0 3, .eraseRange 1 3, .pushBack 4], HybSpec.mayLose o = false) := by decide

end Flame
