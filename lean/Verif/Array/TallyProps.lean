import Verif.Array.TallyLemmas

/-!
# Every object an `Array` constructs is destroyed, or counted (C177)
-/

namespace Flame
open SVec ArrSpec
open Vec (Bal)
variable {α : Type u}

namespace ArrSpec

/-- Objects lost by one call on the sequence `l`: an inner `erase` forgets one. -/
def lost (l : List α) : Op α → Nat
  | .erase p => if p + 1 < l.length then 1 else 0
  | _ => 0

/-- Objects lost by a history of an array of capacity `n`. -/
def lostOver (n : Nat) (l : List α) : List (Op α) → Nat
  | [] => 0
  | o :: os => lost l o + lostOver n (apply n l o) os

end ArrSpec

theorem arrStepT_bal {triv : Bool} {s s' : SVec α} {o : Op α} (h : step triv s o = .ok s')
    {l : List α} (hl : s.size = l.length) {t : Tally} {k : Nat} (hb : Bal t s.size k) :
    ∃ t', stepT triv (s, t) o = .ok (s', t') ∧ Bal t' s'.size (k + ArrSpec.lost l o) := by
  cases o with
  | pushBack x => exact pushBackT_ok h hb
  | popBack => exact popBackT_ok h hb
  | insert p x => exact insertT_ok h hb
  | emplace p x => exact emplaceT_ok h hb
  | insertRange p xs => exact insertRangeT_ok h hb
  | appendRange xs => exact pushBackListT_ok h hb
  | erase p => simp only [ArrSpec.lost, ← hl]; exact eraseT_ok h hb
  | eraseRange b e => exact eraseRangeT_ok h hb
  | clean => exact cleanT_ok h hb
  | reset => exact resetT_ok h hb

/-- **C177, arrays, exactly**: over any history of calls on an array of any capacity, and the destruction at its end, the objects
constructed are those destroyed plus one for every `erase` of an inner element. -/
theorem C177_array_exact {triv : Bool} {n : Nat} (ops : List (Op α)) (hv : ArrSpec.ValidHist triv n [] ops) :
    ∃ s t t', runOps (stepT triv) ((empty n : SVec α), ⟨0, 0⟩) ops = .ok (s, t) ∧ s.toList = .ok (ArrSpec.run n [] ops) ∧
      destructT triv (s, t) = .ok t' ∧
      t.made = t.ended + s.size + ArrSpec.lostOver n [] ops ∧ t'.made = t'.ended + ArrSpec.lostOver n [] ops := by
  have key : ∀ (ops : List (Op α)) (s : SVec α) (l : List α) (t : Tally) (k : Nat), Rep s l → s.cap = n → ArrSpec.ValidHist triv n l ops →
      Bal t s.size k → ∃ s' t', runOps (stepT triv) (s, t) ops = .ok (s', t') ∧ Rep s' (ArrSpec.run n l ops) ∧
        Bal t' s'.size (k + ArrSpec.lostOver n l ops) := by
    intro ops
    induction ops with
    | nil => intro s l t k h _ _ hb; exact ⟨s, t, rfl, h, hb⟩
    | cons o os ih =>
      intro s l t k h hc ⟨hv1, hv2, hv3⟩ hb
      obtain ⟨s', a, b, c⟩ := C05_step h o hv1 hv2
      rw [hc] at b
      obtain ⟨t1, a1, b1⟩ := arrStepT_bal a h.size_eq hb
      obtain ⟨s2, t2, a2, b2, c2⟩ := ih s' _ t1 _ b (by omega) hv3 b1
      refine ⟨s2, t2, by rw [runOps_cons_ok a1]; exact a2, b2, ?_⟩
      rw [Nat.add_assoc] at c2; exact c2
  obtain ⟨s, t, a, b, c⟩ := key ops (empty n) [] ⟨0, 0⟩ 0 (rep_empty n) (by simp [cap, empty]) hv rfl
  obtain ⟨s', d, e, _⟩ := clean_ok (triv := triv) b
  obtain ⟨t', g, i⟩ := cleanT_ok d c
  refine ⟨s, t, t', a, rep_toList b, by simp only [destructT, g], by simpa [Bal] using c, ?_⟩
  have hz : s'.size = 0 := e.size_eq
  rw [hz] at i
  simpa [Bal] using i

/-- Three pushes into an array of two, an emplace before the first element (ignored, the array is full), an erase of the first. -/
example : ArrSpec.ValidHist false 2 [] [Op.pushBack 1, .pushBack 2, .pushBack 3, .emplace 0 4, .erase 0] ∧
    ArrSpec.lostOver 2 [] [Op.pushBack 1, .pushBack 2, .pushBack 3, .emplace 0 4, .erase 0] = 1 ∧
    (runOps (stepT false) ((empty 2 : SVec Nat), ⟨0, 0⟩) [Op.pushBack 1, .pushBack 2, .pushBack 3, .emplace 0 4, .erase 0]
      >>= destructT false) = .ok ⟨2, 1⟩ := by
  refine ⟨by decide, by decide, by decide⟩

end Flame
