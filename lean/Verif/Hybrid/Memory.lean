import Verif.Hybrid.Exact

/-!
# C178: a `HybridVector` and the memory it asks for

Nothing here is a new model: `HVec.step` of `Verif/Hybrid/Model.lean` already takes the allocator's answers (`can`); C21 assumes they are all yes.
-/

namespace Flame
open HVec HybSpec
variable {α : Type}

namespace HybSpec

/-- Calls that need no new memory, from what a user can see: the contents, and where they are.  In the object: the elements fit `N` (a range has to leave
a place free, HybridVector.hpp 1855).  On the heap with room for `c`: they fit `c`. -/
def within (N : Nat) (l : List α) (st : Store) : Op α → Prop
  | .pushBack _ | .insert _ _ | .emplace _ _ => match st with
    | .heap c => l.length < c
    | _ => l.length < N
  | .insertRange _ xs => match st with
    | .none => True
    | .inline => l.length + xs.length < N
    | .heap c => xs = [] ∨ l.length + xs.length ≤ c
  | _ => True

def WithinHist (N : Nat) (l : List α) (st : Store) : List (Op α) → Prop
  | [] => True
  | o :: os => within N l st o ∧ WithinHist N (apply l o) (next N l st o) os

end HybSpec

namespace Vec
variable {can can' : Nat → Bool}

theorem pushBack_free (f : Nat) {v : Vec α} (h : v.size ≠ v.cap) (x : α) : v.pushBack can f x = v.pushBack can' f x := by
  cases f with
  | zero => rfl
  | succ f => simp [pushBack, h]

theorem pushBackList_free (f : Nat) (xs : List α) : ∀ {v : Vec α}, v.size + xs.length ≤ v.cap →
    v.pushBackList can f xs = v.pushBackList can' f xs := by
  induction xs with
  | nil => intro v _; rfl
  | cons x xs ih =>
    intro v h
    simp only [List.length_cons] at h
    simp only [pushBackList]
    rw [pushBack_free (can := can) (can' := can') f (by omega)]
    cases f with
    | zero => rfl
    | succ f =>
      simp only [pushBack, if_pos (show v.size ≠ v.cap by omega)]
      cases hb : v.buf.construct v.size x with
      | ok b =>
        simp only [Res.ok_bind]
        exact ih (by show v.size + 1 + xs.length ≤ v.cap; omega)
      | ub => rfl
      | loop => rfl

theorem insert_free {triv : Bool} (f : Nat) {v : Vec α} (h : v.size < v.cap) (p : Nat) (x : α) :
    v.insert triv can f p x = v.insert triv can' f p x := by
  cases f with
  | zero => rfl
  | succ f => simp only [insert, h, if_true]; rw [pushBack_free (can := can) (can' := can') f (by omega)]

theorem emplace_free {triv : Bool} (f : Nat) {v : Vec α} (h : v.size < v.cap) (p : Nat) (x : α) :
    v.emplace triv can f p x = v.emplace triv can' f p x := by
  cases f with
  | zero => rfl
  | succ f => simp only [emplace, h, if_true]; rw [pushBack_free (can := can) (can' := can') f (by omega)]

theorem insertRange_free {triv : Bool} (f : Nat) {v : Vec α} {xs : List α} (h : xs = [] ∨ v.size + xs.length ≤ v.cap) (p : Nat) :
    v.insertRange triv can f p xs = v.insertRange triv can' f p xs := by
  cases f with
  | zero => rfl
  | succ f =>
    rcases h with rfl | h
    · simp [insertRange]
    · simp only [insertRange, if_pos (show xs.length + v.size ≤ v.cap by omega)]
      rw [pushBackList_free (can := can) (can' := can') f xs h]

/-- Without memory nothing that has to grow ever returns. -/
theorem pushBack_refused (hno : ∀ n, can n = false) (x : α) (f : Nat) : ∀ {v : Vec α}, v.size = v.cap → v.pushBack can f x = .loop := by
  induction f with
  | zero => intro v _; rfl
  | succ f ih =>
    intro v h
    have e : v.reserve can v.nextCap = v := by unfold reserve; simp [hno]
    simp only [pushBack, ne_eq, h, not_true, if_false]
    rw [e]; exact ih h

theorem insert_refused {triv : Bool} (hno : ∀ n, can n = false) (p : Nat) (x : α) (f : Nat) :
    ∀ {v : Vec α}, v.size = v.cap → p ≤ v.size → v.insert triv can f p x = .loop := by
  induction f with
  | zero => intro v _ _; rfl
  | succ f ih =>
    intro v h hp
    have e : v.reserve can v.nextCap = v := by unfold reserve; simp [hno]
    simp only [insert, if_neg (show ¬ v.size < p by omega), if_neg (show ¬ v.size < v.cap by omega)]
    rw [e]; exact ih h hp

theorem emplace_refused {triv : Bool} (hno : ∀ n, can n = false) (p : Nat) (x : α) (f : Nat) :
    ∀ {v : Vec α}, v.size = v.cap → p ≤ v.size → v.emplace triv can f p x = .loop := by
  induction f with
  | zero => intro v _ _; rfl
  | succ f ih =>
    intro v h hp
    have e : v.reserve can v.nextCap = v := by unfold reserve; simp [hno]
    simp only [emplace, if_neg (show ¬ v.size < p by omega), if_neg (show ¬ v.size < v.cap by omega)]
    rw [e]; exact ih h hp

theorem insertRange_refused {triv : Bool} (hno : ∀ n, can n = false) (p : Nat) {xs : List α} (f : Nat) :
    ∀ {v : Vec α}, v.cap < v.size + xs.length → xs ≠ [] → p ≤ v.size → v.insertRange triv can f p xs = .loop := by
  induction f with
  | zero => intro v _ _ _; rfl
  | succ f ih =>
    intro v h hx hp
    have e : v.reserve can (v.cap + xs.length) = v := by unfold reserve; simp [hno]
    have hl : xs.length ≠ 0 := fun h0 => hx (List.eq_nil_of_length_eq_zero h0)
    simp only [insertRange, if_neg (show ¬ v.size < p by omega), if_neg hl, if_neg (show ¬ xs.length + v.size ≤ v.cap by omega)]
    rw [e]; exact ih h hx hp

end Vec

namespace HVec
variable {can : Nat → Bool}

theorem toVector_refused (hno : ∀ n, can n = false) {s : SVec α} {l : List α} (h : SVec.Rep s l) (hl : l ≠ []) (f : Nat) :
    toVector can f s = .loop := by
  unfold toVector
  have e : ((Vec.empty : Vec α).reserve can (s.size * 2)) = Vec.empty := by unfold Vec.reserve; simp [hno]
  rw [SVec.rep_toList h, e]
  simp only [Res.ok_bind]
  cases l with
  | nil => exact absurd rfl hl
  | cons x xs => simp only [Vec.pushBackList]; rw [Vec.pushBack_refused hno x f rfl]; rfl

/-- A call within what is there does not depend on the allocator's answers. -/
theorem step_free {triv : Bool} {can can' : Nat → Bool} {N : Nat} {st : Store} {h : HVec α} {l : List α} (hr : Stored N l st h)
    (o : Op α) (hw : within N l st o) (f : Nat) : step triv can N f h o = step triv can' N f h o := by
  have hE : (SVec.empty N : SVec α).cap = N := by simp [SVec.cap, SVec.empty]
  have hE0 : (SVec.empty N : SVec α).size = 0 := rfl
  cases st with
  | none =>
    obtain ⟨rfl, rfl⟩ := hr
    cases o <;> simp only [step, HVec.pushBack, HVec.popBack, HVec.insert, HVec.emplace, HVec.insertRange, HVec.erase, HVec.eraseRange]
    case pushBack x =>
      simp only [within, List.length_nil] at hw
      simp only [pushBackArr, hE, hE0, if_pos hw]
  | inline =>
    obtain ⟨s, rfl, r, hc⟩ := hr
    have hs := r.size_eq
    cases o <;> simp only [step, HVec.pushBack, HVec.popBack, HVec.insert, HVec.emplace, HVec.insertRange, HVec.erase, HVec.eraseRange]
    case pushBack x => simp only [within] at hw; simp only [pushBackArr, if_pos (show s.cap > s.size by omega)]
    case insert p x => simp only [within] at hw; simp only [if_pos (show s.cap > s.size by omega)]
    case emplace p x => simp only [within] at hw; simp only [if_neg (show ¬ s.cap = s.size by omega)]
    case insertRange p xs => simp only [within] at hw; simp only [if_pos (show xs.length < s.cap - s.size by omega)]
  | heap c =>
    obtain ⟨v, rfl, r, hc⟩ := hr
    have hs := r.2.1
    cases o <;> simp only [step, HVec.pushBack, HVec.popBack, HVec.insert, HVec.emplace, HVec.insertRange, HVec.erase, HVec.eraseRange]
    case pushBack x => simp only [within] at hw; rw [Vec.pushBack_free (can := can) (can' := can') f (by omega)]
    case insert p x => simp only [within] at hw; rw [Vec.insert_free (can := can) (can' := can') f (by omega)]
    case emplace p x => simp only [within] at hw; rw [Vec.emplace_free (can := can) (can' := can') f (by omega)]
    case insertRange p xs =>
      simp only [within] at hw
      rw [Vec.insertRange_free (can := can) (can' := can') f (hw.imp id (fun h => by omega))]

/-- A call that needs memory and is refused it never returns. -/
theorem step_refused {triv : Bool} {can : Nat → Bool} (hno : ∀ n, can n = false) {N : Nat} (hN : 0 < N) {st : Store} {h : HVec α} {l : List α}
    (hr : Stored N l st h) (o : Op α) (hv : valid l o) (hg : good triv N l st o) (hw : ¬ within N l st o) (f : Nat) :
    step triv can N f h o = .loop := by
  cases st with
  | none =>
    obtain ⟨rfl, rfl⟩ := hr
    cases o <;> simp only [within, not_true, not_false_eq_true, List.length_nil] at hw
    case pushBack x => exact absurd hN hw
    case insert p x => exact absurd rfl hg.2.1
    case emplace p x => exact absurd rfl hg.2
  | inline =>
    obtain ⟨s, rfl, r, hc⟩ := hr
    have hs := r.size_eq
    have hle := r.size_le
    cases o <;> simp only [within, not_true, not_false_eq_true] at hw
    case pushBack x =>
      have hl : l ≠ [] := fun e => by subst e; simp only [List.length_nil] at hw; omega
      simp only [step, HVec.pushBack, pushBackArr, if_neg (show ¬ s.cap > s.size by omega), toVector_refused hno r hl f]; rfl
    case insert p x =>
      have hl : l ≠ [] := fun e => by subst e; simp only [List.length_nil] at hw; omega
      simp only [step, HVec.insert, if_neg (show ¬ s.cap > s.size by omega), toVector_refused hno r hl f]; rfl
    case emplace p x =>
      have hl : l ≠ [] := fun e => by subst e; simp only [List.length_nil] at hw; omega
      simp only [step, HVec.emplace, if_pos (show s.cap = s.size by omega), toVector_refused hno r hl f]; rfl
    case insertRange p xs =>
      simp only [step, HVec.insertRange, if_neg (show ¬ xs.length < s.cap - s.size by omega)]
      by_cases hl : l = []
      · subst hl
        have e : ((Vec.empty : Vec α).reserve can (s.size * 2)) = Vec.empty := by unfold Vec.reserve; simp [hno]
        have t : toVector can f s = .ok Vec.empty := by unfold toVector; rw [SVec.rep_toList r, e]; rfl
        simp only [List.length_nil, Nat.zero_add] at hw
        have hx : xs ≠ [] := fun e => by subst e; simp only [List.length_nil] at hw; omega
        have hp : p = 0 := by simp only [valid, List.length_nil] at hv; omega
        have hlen : 0 < xs.length := by omega
        rw [t]
        simp only [Res.ok_bind, hp, if_true]
        rw [Vec.insertRange_refused hno 0 f (v := Vec.empty) (by show 0 < 0 + xs.length; omega) hx (Nat.zero_le _)]; rfl
      · rw [toVector_refused hno r hl f]; rfl
  | heap c =>
    obtain ⟨v, rfl, r, hc⟩ := hr
    have hs := r.2.1
    have hle : v.size ≤ v.cap := r.size_le_cap
    cases o <;> simp only [within, not_true, not_false_eq_true] at hw
    case pushBack x => simp only [step, HVec.pushBack, Vec.pushBack_refused hno x f (show v.size = v.cap by omega)]; rfl
    case insert p x =>
      simp only [valid] at hv
      simp only [step, HVec.insert, Vec.insert_refused hno p x f (show v.size = v.cap by omega) (by omega)]; rfl
    case emplace p x =>
      simp only [valid] at hv
      simp only [step, HVec.emplace, Vec.emplace_refused hno p x f (show v.size = v.cap by omega) (by omega)]; rfl
    case insertRange p xs =>
      simp only [valid] at hv
      simp only [not_or] at hw
      simp only [step, HVec.insertRange, Vec.insertRange_refused hno p f (show v.cap < v.size + xs.length by omega) hw.1 (by omega)]; rfl

end HVec

/-- **C178, the part that holds.**  Whatever the allocator answers, calls within what is there do what they do with memory at hand. -/
theorem C178_within_partial {triv : Bool} {can : Nat → Bool} {N : Nat} {st : Store} {h : HVec α} {l : List α} (hr : Stored N l st h)
    (o : Op α) (hv : valid l o) (hg : good triv N l st o) (hw : within N l st o) (f : Nat) :
    ∃ h', HVec.step triv can N (f + 3) h o = .ok h' ∧ h'.Shows (apply l o) ∧ Stored N (apply l o) (next N l st o) h' := by
  obtain ⟨h', e, s⟩ := step_good (can := fun _ => true) (fun _ => rfl) hr o hv hg f
  exact ⟨h', by rw [step_free hr o hw (can' := fun _ => true)]; exact e, s.holds.shows, s⟩

/-- **C178, exactly, without memory.**  A call that does what it should when memory is at hand does so without any if and only if it is within what is there;
every other one never returns. -/
theorem C178_exact {triv : Bool} {can : Nat → Bool} (hno : ∀ n, can n = false) {N : Nat} (hN : 0 < N) {st : Store} {h : HVec α} {l : List α}
    (hr : Stored N l st h) (o : Op α) (hv : valid l o) (hg : good triv N l st o) (f : Nat) :
    ((∃ h', HVec.step triv can N (f + 3) h o = .ok h' ∧ h'.Shows (apply l o)) ↔ within N l st o) ∧
    (¬ within N l st o → ∀ f, HVec.step triv can N f h o = .loop) := by
  refine ⟨⟨fun ⟨h', e, _⟩ => ?_, fun hw => ?_⟩, fun hw f => step_refused hno hN hr o hv hg hw f⟩
  · refine Classical.byContradiction fun hw => ?_
    rw [step_refused hno hN hr o hv hg hw] at e; cases e
  · obtain ⟨h', a, b, _⟩ := C178_within_partial (can := can) hr o hv hg hw f
    exact ⟨h', a, b⟩

theorem C178_history_aux {triv : Bool} {can : Nat → Bool} {N : Nat} (ops : List (Op α)) (f : Nat) :
    ∀ {st : Store} {h : HVec α} {l : List α}, Stored N l st h → ValidHist l ops → GoodHist triv N l st ops → WithinHist N l st ops →
    ∃ h', runOps (HVec.step triv can N (f + 3)) h ops = .ok h' ∧ h'.Shows (HybSpec.run l ops) := by
  induction ops with
  | nil => intro st h l hr _ _ _; exact ⟨h, rfl, hr.holds.shows⟩
  | cons o os ih =>
    intro st h l hr hv hg hw
    obtain ⟨h1, e, _, s⟩ := C178_within_partial (can := can) hr o hv.1 hg.1 hw.1 f
    obtain ⟨h2, a, b⟩ := ih s hv.2 hg.2 hw.2
    exact ⟨h2, by rw [runOps_cons_ok e]; exact a, b⟩

/-- **C178 over histories.**  From the default-constructed container, whatever the allocator answers. -/
theorem C178_history_partial {triv : Bool} {can : Nat → Bool} (N : Nat) (ops : List (Op α)) (hv : ValidHist [] ops) (hg : GoodHist triv N [] .none ops)
    (hw : WithinHist N [] .none ops) (f : Nat) :
    ∃ h', runOps (HVec.step triv can N (f + 3)) (.unset : HVec α) ops = .ok h' ∧ h'.Shows (HybSpec.run [] ops) :=
  C178_history_aux ops f (st := .none) ⟨rfl, rfl⟩ hv hg hw

/-- **C178 fails where the elements would fit.**  A range that fills the object exactly is not kept in it (HybridVector.hpp 1855 asks for fewer elements
than there are free places): without memory the call never returns, with memory the elements leave for the heap. -/
theorem C178_fill_violated {triv : Bool} {N : Nat} {h : HVec α} {l xs : List α} (hr : Stored N l .inline h) (hfit : l.length + xs.length = N) (hN : 0 < N) :
    (∀ can : Nat → Bool, (∀ n, can n = false) → ∀ f, HVec.step triv can N f h (.insertRange 0 xs) = .loop) ∧
    (∀ can : Nat → Bool, (∀ n, can n = true) → ∀ f, ∃ v, HVec.step triv can N (f + 3) h (.insertRange 0 xs) = .ok (.vec v) ∧ Vec.Rep v (xs ++ l)) := by
  have hv : valid l (.insertRange 0 xs : Op α) := Nat.zero_le _
  have hg : good triv N l .inline (.insertRange 0 xs : Op α) := ⟨fun e => (by cases e), fun _ => .inr rfl⟩
  have hlt : ¬ l.length + xs.length < N := by omega
  refine ⟨fun can hno f => step_refused hno hN hr _ hv hg hlt f, fun can hcan f => ?_⟩
  obtain ⟨h', e, s⟩ := step_good hcan hr _ hv hg f
  simp only [next, if_neg hlt] at s
  obtain ⟨v, rfl, a, b⟩ := s
  exact ⟨v, e, by simpa [apply] using a⟩

/-- A history of every kind of call within three places, and one on the heap, where erasing brings the elements back into the object. -/
example : ValidHist [] [Op.pushBack 1, .pushBack 2, .insert 1 3, .erase 0, .insertRange 1 [], .popBack, .emplace 0 5, .clean, .insertRange 0 [6, 7], .reset] ∧
    GoodHist true 3 [] .none [Op.pushBack 1, .pushBack 2, .insert 1 3, .erase 0, .insertRange 1 [], .popBack, .emplace 0 5, .clean, .insertRange 0 [6, 7], .reset] ∧
    WithinHist 3 [] .none [Op.pushBack 1, .pushBack 2, .insert 1 3, .erase 0, .insertRange 1 [], .popBack, .emplace 0 5, .clean, .insertRange 0 [6, 7], .reset] := by
  simp [ValidHist, GoodHist, WithinHist, within, valid, good, apply, next, more, shrink, stuck]

/-- A container of two places holding two elements: one more is refused; three on the heap with room for four: within. -/
example : Stored 2 [1, 2] .inline (.arr ⟨[.live 1, .live 2], 2⟩) ∧ ¬ within 2 [1, 2] .inline (.pushBack 3 : Op Nat) ∧
    good true 2 [1, 2] .inline (.pushBack 3 : Op Nat) ∧ within 2 [1, 2, 3] (.heap 4) (.pushBack 3 : Op Nat) ∧
    HVec.step true (fun _ => false) 2 9 (.arr ⟨[.live 1, .live 2], 2⟩) (.pushBack 3) = .loop :=
  ⟨⟨_, rfl, ⟨rfl, rfl, [], rfl⟩, rfl⟩, by simp [within], by simp [good, stuck], by simp [within], rfl⟩

example : Stored 3 [1] .inline (.arr ⟨[.live 1, .raw, .raw], 1⟩) ∧
    HVec.step true (fun _ => false) 3 9 (.arr ⟨[.live 1, .raw, .raw], 1⟩) (.insertRange 0 [8, 9]) = .loop :=
  ⟨⟨_, rfl, ⟨rfl, rfl, [.raw, .raw], rfl⟩, rfl⟩, rfl⟩

namespace Flame
open HVec HybSpec
private theorem two_stored : Stored 2 [1, 2] .inline (.arr ⟨[.live 1, .live 2], 2⟩) := ⟨_, rfl, ⟨rfl, rfl, [], rfl⟩, rfl⟩
example := C178_within_partial (triv := true) (can := fun _ => false) two_stored .popBack (by simp [valid]) (by simp [good]) (by simp [within]) 4
example := C178_exact (triv := true) (can := fun _ => false) (fun _ => rfl) (by decide) two_stored (.pushBack 3) (by simp [valid])
  (by simp [good, stuck]) 4
example := C178_history_partial (triv := true) (can := fun _ => false) 3 [.pushBack 1, .pushBack 2, .insert 1 3, .erase 0]
  (by simp [ValidHist, valid, apply]) (by simp [GoodHist, good, apply, next, more, shrink, stuck])
  (by simp [WithinHist, within, apply, next, more, shrink]) 4
end Flame

end Flame
