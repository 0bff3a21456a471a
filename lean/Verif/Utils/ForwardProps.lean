import Verif.Utils.Forward
import Verif.Life.VariantProps

/-! # C141: a variable passed by name keeps its value; an rvalue is consumed only if its value is stored -/

namespace Flame.Fwd

/-- Specification: the caller's object may change only if it was given up (`move(x)`, a temporary) and its value was
stored. -/
def Respects {V : Type} (c : Cat) (v after : V) (stored : Prop) : Prop := after = v ∨ c = .rvalue ∧ stored

end Flame.Fwd

namespace Flame
open Fwd

variable {V : Type} {moved : V → V}

theorem Fwd.emplaceNew_eq (c : Cat) (v : V) : emplaceNew moved c v = if c = .rvalue then moved v else v := by
  cases c <;> rfl

theorem Fwd.forwardAs_deduce (c : Cat) : forwardAs (deduce c) = c := by cases c <;> rfl

theorem Fwd.placementNew_eq (c : Cat) (v : V) : placementNew moved c v = if c = .rvalue then moved v else v := by
  cases c <;> rfl

theorem Fwd.select_pass (c : Cat) :
    (if (select c).rref then moveOf (select c) else name (select c)) = if c = .rvalue then .rvalue else .constLvalue := by
  cases c <;> rfl

namespace SVec

theorem pushBackArg_eq (s : SVec V) (c : Cat) (v : V) : s.pushBackArg moved c v =
    (s.pushBack v).bind fun s' => .ok (s', if c = .rvalue ∧ s.size < s.cap then moved v else v) := by
  simp only [pushBackArg, pushBack, select_pass, placementNew_eq]
  by_cases h : s.size < s.cap
  · simp only [h, if_true, and_true]
    cases s.buf.construct s.size v <;> cases c <;> rfl
  · simp [h, Res.bind]

theorem emplaceBackArg_eq (s : SVec V) (c : Cat) (v : V) : s.emplaceBackArg moved c v =
    (s.pushBack v).bind fun s' => .ok (s', if c = .rvalue ∧ s.size < s.cap then moved v else v) := by
  simp only [emplaceBackArg, pushBack, emplaceNew_eq, forwardAs_deduce]
  by_cases h : s.size < s.cap
  · simp only [h, if_true, and_true]
    cases s.buf.construct s.size v <;> rfl
  · simp [h, Res.bind]

theorem emplaceArg_eq (triv : Bool) (s : SVec V) (pos : Nat) (c : Cat) (v : V) : s.emplaceArg moved triv pos c v =
    (s.emplace triv pos v).bind fun s' => .ok (s', if c = .rvalue ∧ s.size < s.cap then moved v else v) := by
  simp only [emplaceArg, emplace, emplaceNew_eq, forwardAs_deduce, emplaceBackArg_eq]
  by_cases hp : s.size < pos
  · simp [hp, Res.bind]
  by_cases h : s.size < s.cap
  · simp only [hp, h, if_true, if_false, and_true]
    by_cases e : pos = s.size
    · simp only [e, if_true]
    · simp only [e, if_false]
      cases s.buf.constructJunk s.size with
      | ok b =>
        simp only [Res.ok_bind]
        cases b.shiftUp triv pos 1 (s.size - pos) with
        | ok b =>
          simp only [Res.ok_bind]
          cases b.destroy triv pos with
          | ok b =>
            simp only [Res.ok_bind]
            cases b.construct pos v <;> rfl
          | ub => rfl
          | loop => rfl
        | ub => rfl
        | loop => rfl
      | ub => rfl
      | loop => rfl
  · simp [hp, h, Res.bind]

end SVec

namespace Vec

theorem pushBackArg_eq (can : Nat → Bool) (f : Nat) : ∀ (s : Vec V) (c : Cat) (v : V), s.pushBackArg moved can f c v =
    (s.pushBack can f v).bind fun s' => .ok (s', if c = .rvalue then moved v else v) := by
  induction f with
  | zero => intros; rfl
  | succ f ih =>
    intro s c v
    simp only [pushBackArg, pushBack, select_pass, placementNew_eq]
    by_cases h : s.size ≠ s.cap
    · simp only [if_pos h]
      cases s.buf.construct s.size v <;> cases c <;> rfl
    · simp only [if_neg h, ih]
      cases c <;> rfl

theorem emplaceBackArg_eq (can : Nat → Bool) (f : Nat) : ∀ (s : Vec V) (c : Cat) (v : V), s.emplaceBackArg moved can f c v =
    (s.pushBack can f v).bind fun s' => .ok (s', if c = .rvalue then moved v else v) := by
  induction f with
  | zero => intros; rfl
  | succ f ih =>
    intro s c v
    simp only [emplaceBackArg, pushBack, emplaceNew_eq, forwardAs_deduce]
    by_cases h : s.size ≠ s.cap
    · simp only [if_pos h]
      cases s.buf.construct s.size v <;> rfl
    · simp only [if_neg h, ih]

theorem emplaceArg_eq (triv : Bool) (can : Nat → Bool) (f : Nat) : ∀ (s : Vec V) (pos : Nat) (c : Cat) (v : V),
    s.emplaceArg moved triv can f pos c v =
      (s.emplace triv can f pos v).bind fun s' => .ok (s', if c = .rvalue then moved v else v) := by
  induction f with
  | zero => intros; rfl
  | succ f ih =>
    intro s pos c v
    simp only [emplaceArg, emplace, forwardAs_deduce, placementNew_eq]
    by_cases hp : s.size < pos
    · simp [hp, Res.bind]
    by_cases h : s.size < s.cap
    · simp only [hp, h, if_true, if_false]
      by_cases e : pos = s.size
      · simp only [e, if_true, emplaceBackArg_eq]
      · simp only [e, if_false]
        cases s.buf.constructJunk s.size with
        | ok b =>
          simp only [Res.ok_bind]
          cases b.shiftUp triv pos 1 (s.size - pos) with
          | ok b =>
            simp only [Res.ok_bind]
            cases b.construct pos v <;> rfl
          | ub => rfl
          | loop => rfl
        | ub => rfl
        | loop => rfl
    · simp only [hp, h, if_false, ih]

end Vec

theorem Fwd.deduced_idem (c : Cat) : forwardDeduced (deduce (forwardDeduced (deduce c))) = forwardDeduced (deduce c) := by
  cases c <;> rfl

/-- Not const. -/
def Fwd.Cat.plain : Cat → Bool
  | .lvalue | .rvalue => true
  | _ => false

theorem Fwd.deduced_rvalue (c : Cat) : (forwardDeduced (deduce c) = .rvalue) ↔ c.plain = true := by
  cases c <;> decide

namespace HVec

theorem emplaceBackArrArg_eq (can : Nat → Bool) (f : Nat) (s : SVec V) (c : Cat) (v : V) : emplaceBackArrArg moved can f s c v =
    (pushBackArr can f s v).bind fun h' => .ok (h', if c.plain then moved v else v) := by
  simp only [emplaceBackArrArg, pushBackArr, SVec.emplaceBackArg_eq, Vec.emplaceBackArg_eq, deduced_idem, deduced_rvalue]
  by_cases h : s.cap > s.size
  · have h' : s.size < s.cap := h
    simp only [h, h', if_true, and_true]
    cases s.pushBack v <;> rfl
  · simp only [h, if_false]
    cases toVector can f s with
    | ok w =>
      simp only [Res.ok_bind]
      cases w.pushBack can f v <;> rfl
    | ub => rfl
    | loop => rfl

theorem emplaceBackArg_eq (can : Nat → Bool) (N f : Nat) (h : HVec V) (c : Cat) (v : V) : h.emplaceBackArg moved can N f c v =
    (h.pushBack can N f v).bind fun h' => .ok (h', if c.plain then moved v else v) := by
  cases h with
  | unset =>
    simp only [emplaceBackArg, pushBack, emplaceBackArrArg_eq]
    cases c <;> rfl
  | arr s => simp only [emplaceBackArg, pushBack, emplaceBackArrArg_eq]
  | vec s =>
    simp only [emplaceBackArg, pushBack, Vec.emplaceBackArg_eq, deduced_rvalue]
    cases s.pushBack can f v <;> rfl

theorem emplaceArg_eq (triv : Bool) (can : Nat → Bool) (f : Nat) {h : HVec V} {pos : Nat} {c : Cat} {v : V} :
    (match h with | .arr s => s.size ≤ s.cap | _ => True) →
    h.emplaceArg moved triv can f pos c v =
      (h.emplace triv can f pos v).bind fun h' => .ok (h', if c.plain then moved v else v) := by
  intro hw
  cases h with
  | unset => rfl
  | arr s =>
    simp only [emplaceArg, emplace, Vec.emplaceArg_eq, SVec.emplaceArg_eq, deduced_idem, deduced_rvalue]
    by_cases e : s.cap = s.size
    · simp only [e, if_true]
      cases toVector can f s with
      | ok w =>
        simp only [Res.ok_bind]
        cases w.emplace triv can f pos v <;> rfl
      | ub => rfl
      | loop => rfl
    · have : s.size < s.cap := by simp only at hw; omega
      simp only [e, this, if_false, and_true]
      cases s.emplace triv pos v <;> rfl
  | vec s =>
    simp only [emplaceArg, emplace, Vec.emplaceArg_eq, deduced_rvalue]
    cases s.emplace triv can f pos v <;> rfl

end HVec

namespace CArr

theorem pushBackArg_eq (s : CArr V) (c : Cat) (v : V) : s.pushBackArg moved c v =
    (s.pushBack v).bind fun s' => .ok (s', if c = .rvalue ∧ s.size ≠ s.capacity then moved v else v) := by
  simp only [pushBackArg, pushBack, select_pass, placementNew_eq]
  by_cases h : s.size ≠ s.capacity
  · simp only [if_pos h, h, not_false_eq_true, and_true, ne_eq]
    cases s.buf.construct s.tail v <;> cases c <;> rfl
  · simp [h, Res.bind]

theorem emplaceBackArg_eq (s : CArr V) (c : Cat) (v : V) : s.emplaceBackArg moved c v =
    (s.pushBack v).bind fun s' => .ok (s', if c.plain then moved v else v) := by
  simp only [emplaceBackArg, pushBackArg_eq]
  cases s.pushBack v <;> cases c <;> rfl

end CArr

/-! ## The claims -/

/-- `Array`: `pushBack`, `emplaceBack` and `emplace` store what the corresponding function of the array model stores; the
caller's variable changes only if it was given up and there was room. -/
theorem C141_array (triv : Bool) (s : SVec V) (pos : Nat) (c : Cat) (v : V) :
    (∀ s' w, s.pushBackArg moved c v = .ok (s', w) → s.pushBack v = .ok s' ∧ Respects c v w (s'.size = s.size + 1)) ∧
    (∀ s' w, s.emplaceBackArg moved c v = .ok (s', w) → s.pushBack v = .ok s' ∧ Respects c v w (s'.size = s.size + 1)) ∧
    (∀ s' w, s.emplaceArg moved triv pos c v = .ok (s', w) → s.emplace triv pos v = .ok s' ∧ Respects c v w (s'.size = s.size + 1)) := by
  have hp : ∀ s', s.pushBack v = .ok s' → s.size < s.cap → s'.size = s.size + 1 := by
    intro s' h hr
    simp only [SVec.pushBack, if_pos hr] at h
    obtain ⟨b, _, hb⟩ := Res.bind_eq_ok.mp h
    injection hb with hb
    rw [← hb]
  have he : ∀ s', s.emplace triv pos v = .ok s' → s.size < s.cap → s'.size = s.size + 1 := by
    intro s' h hr
    simp only [SVec.emplace, if_pos hr] at h
    split at h
    · cases h
    split at h
    · exact hp s' h hr
    obtain ⟨b1, _, h⟩ := Res.bind_eq_ok.mp h
    obtain ⟨b2, _, h⟩ := Res.bind_eq_ok.mp h
    obtain ⟨b3, _, h⟩ := Res.bind_eq_ok.mp h
    obtain ⟨b4, _, h⟩ := Res.bind_eq_ok.mp h
    injection h with h
    rw [← h]
  have key : ∀ (r : Res (SVec V)) (s' : SVec V) (w : V),
      (r.bind fun s' => .ok (s', if c = .rvalue ∧ s.size < s.cap then moved v else v)) = .ok (s', w) →
      (∀ s', r = .ok s' → s.size < s.cap → s'.size = s.size + 1) → r = .ok s' ∧ Respects c v w (s'.size = s.size + 1) := by
    intro r s' w h hr
    obtain ⟨s1, h1, h2⟩ := Res.bind_eq_ok.mp h
    injection h2 with h2
    injection h2 with h2 h3
    subst h2
    refine ⟨h1, ?_⟩
    by_cases hc : c = .rvalue ∧ s.size < s.cap
    · exact .inr ⟨hc.1, hr _ h1 hc.2⟩
    · rw [if_neg hc] at h3
      exact .inl h3.symm
  refine ⟨fun s' w h => ?_, fun s' w h => ?_, fun s' w h => ?_⟩
  · rw [SVec.pushBackArg_eq] at h
    exact key _ s' w h hp
  · rw [SVec.emplaceBackArg_eq] at h
    exact key _ s' w h hp
  · rw [SVec.emplaceArg_eq] at h
    exact key _ s' w h he

example : (SVec.empty 1 : SVec Nat).emplaceBackArg (fun _ => 0) .lvalue 5 = .ok (⟨[.live 5], 1⟩, 5) ∧
    (SVec.empty 1 : SVec Nat).emplaceBackArg (fun _ => 0) .rvalue 5 = .ok (⟨[.live 5], 1⟩, 0) ∧
    (⟨[.live 5], 1⟩ : SVec Nat).pushBackArg (fun _ => 0) .rvalue 7 = .ok (⟨[.live 5], 1⟩, 7) := by decide

theorem Vec.reserve_size_eq (can : Nat → Bool) (s : Vec V) (n : Nat) : (s.reserve can n).size = s.size := by
  unfold Vec.reserve
  split
  · split <;> rfl
  · rfl

theorem Vec.pushBack_size_succ {can : Nat → Bool} {f : Nat} : ∀ {s s' : Vec V} {v : V}, s.pushBack can f v = .ok s' → s'.size = s.size + 1 := by
  induction f with
  | zero => intro s s' v h; cases h
  | succ f ih =>
    intro s s' v h
    simp only [Vec.pushBack] at h
    split at h
    · obtain ⟨b, _, hb⟩ := Res.bind_eq_ok.mp h
      injection hb with hb
      rw [← hb]
    · rw [ih h, Vec.reserve_size_eq]

theorem Vec.emplace_size_succ {triv : Bool} {can : Nat → Bool} {f : Nat} : ∀ {s s' : Vec V} {pos : Nat} {v : V},
    s.emplace triv can f pos v = .ok s' → s'.size = s.size + 1 := by
  induction f with
  | zero => intro s s' pos v h; cases h
  | succ f ih =>
    intro s s' pos v h
    simp only [Vec.emplace] at h
    split at h
    · cases h
    split at h
    · split at h
      · exact Vec.pushBack_size_succ h
      · obtain ⟨b1, _, h⟩ := Res.bind_eq_ok.mp h
        obtain ⟨b2, _, h⟩ := Res.bind_eq_ok.mp h
        obtain ⟨b3, _, h⟩ := Res.bind_eq_ok.mp h
        injection h with h
        rw [← h]
    · rw [ih h, Vec.reserve_size_eq]

/-- `Vector`: the same. -/
theorem C141_vector (triv : Bool) (can : Nat → Bool) (f : Nat) (s : Vec V) (pos : Nat) (c : Cat) (v : V) :
    (∀ s' w, s.pushBackArg moved can f c v = .ok (s', w) →
      s.pushBack can f v = .ok s' ∧ Respects c v w (s'.size = s.size + 1)) ∧
    (∀ s' w, s.emplaceBackArg moved can f c v = .ok (s', w) →
      s.pushBack can f v = .ok s' ∧ Respects c v w (s'.size = s.size + 1)) ∧
    (∀ s' w, s.emplaceArg moved triv can f pos c v = .ok (s', w) →
      s.emplace triv can f pos v = .ok s' ∧ Respects c v w (s'.size = s.size + 1)) := by
  have key : ∀ (r : Res (Vec V)) (s' : Vec V) (w : V),
      (r.bind fun s' => .ok (s', if c = .rvalue then moved v else v)) = .ok (s', w) →
      (∀ s', r = .ok s' → s'.size = s.size + 1) → r = .ok s' ∧ Respects c v w (s'.size = s.size + 1) := by
    intro r s' w h hr
    obtain ⟨s1, h1, h2⟩ := Res.bind_eq_ok.mp h
    injection h2 with h2
    injection h2 with h2 h3
    subst h2
    refine ⟨h1, ?_⟩
    by_cases hc : c = .rvalue
    · exact .inr ⟨hc, hr _ h1⟩
    · rw [if_neg hc] at h3
      exact .inl h3.symm
  refine ⟨fun s' w h => ?_, fun s' w h => ?_, fun s' w h => ?_⟩
  · rw [Vec.pushBackArg_eq] at h; exact key _ s' w h fun _ => Vec.pushBack_size_succ
  · rw [Vec.emplaceBackArg_eq] at h; exact key _ s' w h fun _ => Vec.pushBack_size_succ
  · rw [Vec.emplaceArg_eq] at h; exact key _ s' w h fun _ => Vec.emplace_size_succ

example : (Vec.empty : Vec Nat).emplaceBackArg (fun _ => 0) (fun _ => true) 9 .lvalue 5 ≠ .loop ∧
    ((Vec.empty : Vec Nat).emplaceBackArg (fun _ => 0) (fun _ => true) 9 .lvalue 5).bind (fun r => .ok r.2) = .ok 5 ∧
    ((Vec.empty : Vec Nat).emplaceBackArg (fun _ => 0) (fun _ => true) 9 .rvalue 5).bind (fun r => .ok r.2) = .ok 0 := by decide

/-- `HybridVector::emplaceBack` and `emplace` pass their arguments on with `forward(args)...`, which turns a name into an
rvalue: whatever is not const is moved from, in every state. -/
theorem C141_hybrid_exact (triv : Bool) (can : Nat → Bool) (N f : Nat) (h : HVec V) (pos : Nat) (c : Cat) (v : V)
    (hw : match h with | .arr s => s.size ≤ s.cap | _ => True) :
    h.emplaceBackArg moved can N f c v =
      ((h.pushBack can N f v).bind fun h' => .ok (h', if c = .lvalue ∨ c = .rvalue then moved v else v)) ∧
    h.emplaceArg moved triv can f pos c v =
      ((h.emplace triv can f pos v).bind fun h' => .ok (h', if c = .lvalue ∨ c = .rvalue then moved v else v)) := by
  have e : (c = .lvalue ∨ c = .rvalue) ↔ c.plain = true := by cases c <;> decide
  rw [HVec.emplaceBackArg_eq, HVec.emplaceArg_eq triv can f hw]
  simp only [e, and_self]

/-- So a variable passed by name is changed (whenever moving changes its source), although nobody gave it up. -/
theorem C141_hybrid_violated (can : Nat → Bool) (N f : Nat) {h h' : HVec V} {v w : V} (hm : moved v ≠ v)
    (hr : h.emplaceBackArg moved can N f .lvalue v = .ok (h', w)) : w = moved v ∧ ¬ Respects .lvalue v w (h'.size = h.size + 1) := by
  rw [HVec.emplaceBackArg_eq] at hr
  obtain ⟨s1, h1, h2⟩ := Res.bind_eq_ok.mp hr
  injection h2 with h2
  injection h2 with h2 h3
  have hw : w = moved v := h3.symm
  refine ⟨hw, ?_⟩
  rintro (e | ⟨e, _⟩)
  · exact hm (hw ▸ e)
  · cases e

example : (HVec.unset : HVec Nat).emplaceBackArg (fun _ => 0) (fun _ => true) 2 9 .lvalue 5 = .ok (.arr ⟨[.live 5, .raw], 1⟩, 0) := by
  decide

/-- `CircularArray::pushBack` treats its argument as it should. -/
theorem C141_circular_push (s : CArr V) (c : Cat) (v : V) {s' : CArr V} {w : V} (h : s.pushBackArg moved c v = .ok (s', w)) :
    s.pushBack v = .ok s' ∧ Respects c v w (s' ≠ s) := by
  rw [CArr.pushBackArg_eq] at h
  obtain ⟨s1, h1, h2⟩ := Res.bind_eq_ok.mp h
  injection h2 with h2
  injection h2 with h2 h3
  subst h2
  refine ⟨h1, ?_⟩
  by_cases hc : c = .rvalue ∧ s.size ≠ s.capacity
  · refine .inr ⟨hc.1, ?_⟩
    intro e
    subst e
    simp only [CArr.pushBack, if_pos hc.2] at h1
    have := hc.2
    cases hb : s1.buf.construct s1.tail v with
    | ok b =>
      rw [hb] at h1
      injection h1 with h1
      have ht := congrArg CArr.tail h1
      simp only [CArr.updateTerminal] at ht
      split at ht
      · rename_i hl
        simp only [CArr.size, CArr.capacity] at this
        split at this <;> omega
      · omega
    | ub => rw [hb] at h1; cases h1
    | loop => rw [hb] at h1; cases h1
  · rw [if_neg hc] at h3
    exact .inl h3.symm

example : (CArr.empty 1 : CArr Nat).pushBackArg (fun _ => 0) .rvalue 5 = .ok (⟨[.live 5, .raw], 0, 1, 0⟩, 0) ∧
    (⟨[.live 5, .raw], 0, 1, 0⟩ : CArr Nat).pushBackArg (fun _ => 0) .rvalue 7 = .ok (⟨[.live 5, .raw], 0, 1, 0⟩, 7) := by decide

/-- `CircularArray::emplaceBack` moves from a named variable. -/
theorem C141_circular_emplace_exact (s : CArr V) (c : Cat) (v : V) : s.emplaceBackArg moved c v =
    (s.pushBack v).bind fun s' => .ok (s', if c = .lvalue ∨ c = .rvalue then moved v else v) := by
  have e : (c = .lvalue ∨ c = .rvalue) ↔ c.plain = true := by cases c <;> decide
  rw [CArr.emplaceBackArg_eq]
  simp only [e]

/-- Even when the array is full and nothing is stored: the value is lost. -/
theorem C141_circular_lost_violated (s : CArr V) {v : V} (hm : moved v ≠ v) (hf : s.size = s.capacity) :
    s.emplaceBackArg moved .lvalue v = .ok (s, moved v) ∧ s.emplaceBackArg moved .rvalue v = .ok (s, moved v) ∧
      ¬ Respects .lvalue v (moved v) (s ≠ s) ∧ ¬ Respects .rvalue v (moved v) (s ≠ s) := by
  have : s.pushBack v = .ok s := by simp [CArr.pushBack, hf]
  refine ⟨by rw [CArr.emplaceBackArg_eq, this]; rfl, by rw [CArr.emplaceBackArg_eq, this]; rfl, ?_, ?_⟩
  · rintro (e | ⟨_, e⟩)
    · exact hm e
    · exact e rfl
  · rintro (e | ⟨_, e⟩)
    · exact hm e
    · exact e rfl

example : (⟨[.live 5, .raw], 0, 1, 0⟩ : CArr Nat).size = (⟨[.live 5, .raw], 0, 1, 0⟩ : CArr Nat).capacity := by decide

/-! ### Variant -/

namespace Life.Variant

theorem setArgStruct_move (ts : List Nat) (t : Nat) (v : V) :
    setArgStruct moved ts t .rvalue v = (setIndex ts t, if t ∈ ts then moved v else v) := by
  induction ts with
  | nil => rfl
  | cons a as ih =>
    by_cases e : t = a
    · subst e; simp [setArgStruct, setIndex, selectT, deduce, moveOf, xvalue, left]
    · have : (if (selectT Cat.rvalue).rref then moveOf (selectT .rvalue) else name (selectT .rvalue)) = .rvalue := rfl
      simp only [setArgStruct, setIndex, this, ih, e, false_and, if_false, List.mem_cons, false_or]

theorem setArgStruct_copy (ts : List Nat) (t : Nat) (v : V) :
    setArgStruct moved ts t .constLvalue v = (setIndex ts t, v) := by
  induction ts with
  | nil => rfl
  | cons a as ih =>
    by_cases e : t = a
    · subst e; simp [setArgStruct, setIndex, selectT, name, left]
    · have : (if (selectT Cat.constLvalue).rref then moveOf (selectT .constLvalue) else name (selectT .constLvalue)) = .constLvalue := rfl
      simp only [setArgStruct, setIndex, this, ih, e, false_and, if_false]

theorem setArgStruct_constRvalue (ts : List Nat) (t : Nat) (v : V) : setArgStruct moved ts t .constRvalue v = (-1, v) := by
  induction ts with
  | nil => rfl
  | cons a as ih =>
    have : (if (selectT Cat.constRvalue).rref then moveOf (selectT .constRvalue) else name (selectT .constRvalue)) = .constRvalue := rfl
    simp [setArgStruct, this, ih]

theorem setArgStruct_eq (ts : List Nat) (t : Nat) {c : Cat} (hc : c ≠ .constRvalue) (v : V) :
    setArgStruct moved ts t (passOn c) v = (setIndex ts t, if (c = .lvalue ∨ c = .rvalue) ∧ t ∈ ts then moved v else v) := by
  cases c with
  | lvalue => exact (setArgStruct_move ts t v).trans (by simp)
  | rvalue => exact (setArgStruct_move ts t v).trans (by simp)
  | constLvalue => exact (setArgStruct_copy ts t v).trans (by simp)
  | constRvalue => exact absurd rfl hc

end Life.Variant

open Own Life.Variant in
/-- `Variant`: `v.set(x)` and `Variant v(x)` store `x` and move from it, whether or not it was given up; only const
objects, and objects of a type that is no alternative, are left alone. -/
theorem C141_variant_exact (ts : List Nat) (s : St V) (i t : Nat) {c : Cat} (hc : c ≠ .constRvalue) (v : V) :
    setArg moved ts s i t c v = ((step ts moved s (.set i t v)).bind fun s' =>
      .ok (s', if (c = .lvalue ∨ c = .rvalue) ∧ t ∈ ts then moved v else v)) ∧
    ctorArg moved ts s i t c v = ((step ts moved s (.ctor i t v)).bind fun s' =>
      .ok (s', if (c = .lvalue ∨ c = .rvalue) ∧ t ∈ ts then moved v else v)) := by
  constructor
  · simp only [setArg, step, setArgStruct_eq ts t hc]
    cases s.vars i with
    | none => rfl
    | some x =>
      dsimp only
      generalize resetVar ts s i x = r
      cases r with
      | ok s1 =>
        simp only [Res.ok_bind, setInto]
        split
        · generalize setIdx s1 i (setIndex ts t) = r
          cases r <;> rfl
        · rfl
      | ub => rfl
      | loop => rfl
  · simp only [ctorArg, step, setArgStruct_eq ts t hc]
    cases s.vars i with
    | none =>
      simp only [setInto]
      split
      · generalize setIdx _ i (setIndex ts t) = r
        cases r <;> rfl
      · rfl
    | some x => rfl

open Own Life.Variant in
/-- So a variable of an alternative type passed by name is changed (whenever moving changes its source). -/
theorem C141_variant_violated (ts : List Nat) {s s' : St V} {i t : Nat} {v w : V} (ht : t ∈ ts) (hm : moved v ≠ v)
    (h : setArg moved ts s i t .lvalue v = .ok (s', w) ∨ ctorArg moved ts s i t .lvalue v = .ok (s', w)) :
    w = moved v ∧ ¬ Respects .lvalue v w True := by
  have hw : w = moved v := by
    rcases h with h | h
    · rw [(C141_variant_exact ts s i t (by decide) v).1] at h
      obtain ⟨s1, _, h2⟩ := Res.bind_eq_ok.mp h
      injection h2 with h2
      injection h2 with _ h3
      simpa [ht] using h3.symm
    · rw [(C141_variant_exact ts s i t (by decide) v).2] at h
      obtain ⟨s1, _, h2⟩ := Res.bind_eq_ok.mp h
      injection h2 with h2
      injection h2 with _ h3
      simpa [ht] using h3.symm
  refine ⟨hw, ?_⟩
  rintro (e | ⟨e, _⟩)
  · exact hm (hw ▸ e)
  · cases e

open Own Life.Variant in
/-- In every state of a program, `set` of a named variable has the effect of storing it and emptying it. -/
theorem C141_variant_reach {ts : List Nat} (hn : ts.Nodup) {s : St V} (hr : Reach (step ts moved) safe init s) {i t : Nat}
    (hi : s.vars i ≠ none) (ht : t ∈ ts) (v : V) :
    ∃ s', setArg moved ts s i t .lvalue v = .ok (s', moved v) ∧ contents ts s' i = some (some (t, v)) := by
  obtain ⟨s', h1, _, h2⟩ := step_ok (moved := moved) hn (reach_inv hn hr) (o := .set i t v) ⟨hi, trivial⟩
  refine ⟨s', ?_, ?_⟩
  · rw [(C141_variant_exact ts s i t (by decide) v).1, h1]
    simp [Res.bind, ht]
  · rw [h2 ⟨⟨hi, trivial⟩, trivial⟩]
    simp [spec, ht]

open Own Life.Variant in
/-- A const rvalue (a function returning `const X`) is of no alternative type: the variant ends up holding nothing. -/
theorem C141_variant_constRvalue (ts : List Nat) {s s' : St V} {i t : Nat} {v w : V}
    (h : setArg moved ts s i t .constRvalue v = .ok (s', w)) : w = v ∧ indexOf s' i = -1 := by
  have hp : passOn .constRvalue = .constRvalue := rfl
  simp only [setArg, hp, setArgStruct_constRvalue] at h
  cases hx : s.vars i with
  | none => rw [hx] at h; cases h
  | some x =>
    rw [hx] at h
    obtain ⟨s1, _, h⟩ := Res.bind_eq_ok.mp h
    simp only [show ((-1 : Int) < 0) by decide, if_true] at h
    obtain ⟨s2, h2, h⟩ := Res.bind_eq_ok.mp h
    injection h with h
    injection h with ha hb
    subst ha
    refine ⟨hb.symm, ?_⟩
    unfold setIdx at h2
    cases hy : s1.vars i with
    | none => rw [hy] at h2; cases h2
    | some y =>
      rw [hy] at h2
      injection h2 with h2
      subst h2
      simp [indexOf, upd_self]

open Own Life.Variant in
example : ∃ s : St Nat, Reach (step [7, 8] (fun _ => 0)) safe init s ∧ s.vars 0 = some ⟨1, some ⟨0, 1, 55⟩⟩ :=
  Reach.witness (step := step [7, 8] (fun _ => 0)) (pre := safe) (s₀ := (init : St Nat))
    [.ctor 0 8 55] (fun s => s.vars 0) (some ⟨1, some ⟨0, 1, 55⟩⟩) (by decide)

/-! ### Object -/

open Life.Object in
/-- `Object o(x)` stores `x` and moves from it unless it is const; `o = x` compiles only for what is const or given up, and
treats it as it should. -/
theorem C141_object_exact (al : Nat → Nat) (s : St V) (i addr t : Nat) (c : Cat) (v : V) :
    ctorArg moved al s i addr t c v = ((step al s (.ctor i addr t v)).bind fun s' =>
      .ok (s', if c = .lvalue ∨ c = .rvalue then moved v else v)) ∧
    assignArg moved al s i t c v = (if c = .lvalue then .ub else (step al s (.set i t v)).bind fun s' =>
      .ok (s', if c = .rvalue then moved v else v)) := by
  constructor
  · simp only [ctorArg, step]
    cases s.vars i with
    | none =>
      cases c <;> simp only [assignArg, moveOf, xvalue, deduce, reduceCtorEq, if_false, if_true, Bool.false_eq_true] <;>
        cases assignValue al _ i t v <;> rfl
    | some x => rfl
  · by_cases hc : c = .lvalue
    · simp only [assignArg, if_pos hc]
    · simp only [assignArg, step, if_neg hc]
      cases assignValue al s i t v <;> cases c <;> first | rfl | exact absurd rfl hc

open Life.Object in
/-- So a variable an object is constructed from is changed (whenever moving changes its source). -/
theorem C141_object_violated (al : Nat → Nat) {s s' : St V} {i addr t : Nat} {v w : V} (hm : moved v ≠ v)
    (h : ctorArg moved al s i addr t .lvalue v = .ok (s', w)) : w = moved v ∧ ¬ Respects .lvalue v w True := by
  rw [(C141_object_exact al s i addr t .lvalue v).1] at h
  obtain ⟨s1, _, h2⟩ := Res.bind_eq_ok.mp h
  injection h2 with h2
  injection h2 with _ h3
  have hw : w = moved v := by simpa using h3.symm
  refine ⟨hw, ?_⟩
  rintro (e | ⟨e, _⟩)
  · exact hm (hw ▸ e)
  · cases e

open Life.Object in
example : ∃ s' : St Nat, ctorArg (fun _ => 0) (fun _ => 8) init 0 16 3 .lvalue 5 = .ok (s', 0) := ⟨_, rfl⟩

namespace Flame
open Fwd Own
example := C141_hybrid_exact (moved := fun _ => 0) true (fun _ => true) 2 9 (.arr ⟨[.live 5, .raw], 1⟩ : HVec Nat) 1 .lvalue 7 (by decide)
open Life.Variant in
example := C141_variant_exact (moved := fun _ => 0) [7, 8] (init : St Nat) 0 8 (c := .lvalue) (by decide) 55
open Life.Variant in
example := C141_variant_violated (moved := fun _ => 0) [7, 8] (s := (init : St Nat)) (i := 0) (t := 8) (v := 55) (w := 0) (by decide) (by decide)
  (.inr rfl)
open Life.Variant in
example := C141_variant_reach (moved := fun _ => 0) (ts := [7, 8]) (by decide)
  (.visit ([.ctor 0 8 55] : List (Op Nat)) (by decide)) (i := 0) (t := 7) (by decide) (by decide) 9
end Flame

end Flame
