import Verif.Array.Props
import Verif.Vector.OwnProps

/-! # C137: a fixed-capacity vector's own elements as arguments -/

namespace Flame
namespace SVec
open Cells (rest)
open Vec (gapTail gap_ok ownRange)
variable {α : Type u}

theorem get_own {s : SVec α} {l : List α} (h : Rep s l) {i : Nat} (hi : i < l.length) : s.buf.get i = .ok l[i] := by
  obtain ⟨R, h3⟩ := h.2.2
  simp only [toVec] at h3
  rw [h3, Cells.get, List.getElem?_append_left (by simpa using hi)]
  simp [hi]

theorem pushBackOwn_eq {s : SVec α} {l : List α} (h : Rep s l) {i : Nat} (hi : i < l.length) : s.pushBackOwn i = s.pushBack l[i] := by
  rw [pushBackOwn, pushBack, get_own h hi]; rfl

theorem pushOwnLoop_eq : ∀ {n : Nat} {s : SVec α} {l : List α} {b : Nat}, Rep s l → b + n ≤ l.length →
    pushOwnLoop s b n = s.pushBackList ((l.drop b).take n) := by
  intro n
  induction n with
  | zero => intros; rfl
  | succ n ih =>
    intro s l b h hb
    obtain ⟨s', a, r, c⟩ := pushBack_ok h l[b]
    rw [List.drop_eq_getElem_cons (show b < l.length by omega), List.take_succ_cons]
    simp only [pushOwnLoop, pushBackList, pushBackOwn_eq h (show b < l.length by omega), a, Res.ok_bind]
    split at r
    · rw [ih (b := b + 1) r (by simp; omega), List.drop_append_of_le_length (by omega), List.take_append_of_le_length (by simp; omega)]
    · rw [ih (b := b + 1) r (by omega)]

/-- **C137 (partial), appending**: a reference to an own element and a range of own elements are appended correctly as far as there is room. -/
theorem C137_append_own {s : SVec α} {l : List α} (h : Rep s l) :
    (∀ i (hi : i < l.length), ∃ s', s.pushBackOwn i = .ok s' ∧ s'.toList = .ok (if l.length < s.cap then l ++ [l[i]] else l)) ∧
    ∀ b e, b ≤ e → e ≤ l.length →
      ∃ s', s.appendOwn b e = .ok s' ∧ s'.toList = .ok (l ++ ((l.drop b).take (e - b)).take (s.cap - l.length)) := by
  refine ⟨fun i hi => ?_, fun b e hbe he => ?_⟩
  · obtain ⟨s', a, r, _⟩ := pushBack_ok h l[i]
    exact ⟨s', by rw [pushBackOwn_eq h hi, a], rep_toList r⟩
  · obtain ⟨s', a, r, _⟩ := pushBackList_ok h ((l.drop b).take (e - b))
    refine ⟨s', ?_, rep_toList r⟩
    have := h.size_eq
    rw [appendOwn, if_neg (by omega), pushOwnLoop_eq h (by omega), a]

example : Rep (⟨[.live 1, .live 2, .live 3, .raw], 3⟩ : SVec Nat) [1, 2, 3] := ⟨rfl, rfl, [.raw], rfl⟩

/-- What `a.insert(begin()+p, a[i])` and `a.emplace(begin()+p, a[i])` insert when there is room: an element before the position, or any at the
end, is inserted correctly; the element at the position only if moving from it leaves its value; a later element is replaced by its
predecessor. -/
theorem C137_insert_own {triv keep : Bool} {s : SVec α} {l : List α} (h : Rep s l) (hr : l.length < s.cap) {p i : Nat}
    (hp : p ≤ l.length) (hi : i < l.length) :
    (i < p ∨ i = p ∧ keep = true → ∃ s' s'', s.insertOwn triv keep p i = .ok s' ∧ s.emplaceOwn triv keep p i = .ok s'' ∧
      s'.toList = .ok (l.take p ++ l[i] :: l.drop p) ∧ s''.toList = .ok (l.take p ++ l[i] :: l.drop p)) ∧
    (i = p ∧ keep = false → s.insertOwn triv keep p i = .ub ∧ s.emplaceOwn triv keep p i = .ub) ∧
    (p < i → ∃ s' s'', s.insertOwn triv keep p i = .ok s' ∧ s.emplaceOwn triv keep p i = .ok s'' ∧
      s'.toList = .ok (l.take p ++ l[i - 1] :: l.drop p) ∧ s''.toList = .ok (l.take p ++ l[i - 1] :: l.drop p)) := by
  have h2 := h.size_eq
  by_cases hpe : p = l.length
  · refine ⟨fun _ => ?_, fun ⟨hh, _⟩ => by omega, fun hh => by omega⟩
    obtain ⟨s', a, b⟩ := (C137_append_own h).1 i hi
    rw [if_pos hr] at b
    refine ⟨s', s', ?_, ?_, ?_, ?_⟩
    · rw [insertOwn, if_neg (by omega), if_pos (by omega), if_pos (by omega), a]
    · rw [emplaceOwn, if_neg (by omega), if_pos (by omega), if_pos (by omega), a]
    all_goals rw [b, hpe]; simp
  have hp' : p < l.length := by omega
  obtain ⟨b1, R, e1, e2, e4⟩ := gap_ok (triv := triv) keep h (p := p) (n := 1) (by simp only [toVec]; omega) (by omega)
    (by simp only [toVec, cap] at *; omega)
  simp only [toVec] at e1 e2 e4
  have e0 : s.buf.constructJunk s.size = .ok b1 := by
    simp only [Cells.junkRange] at e1
    cases hh : s.buf.constructJunk s.size <;> simp_all
  have e3 : (l.take p).map Cell.live ++ gapTail keep l p 1 R = (l.take p).map .live ++ rest keep l[p] :: ((l.drop p).map .live ++ R) := by
    rw [gapTail, show (l.drop p).map (rest keep) = rest keep l[p] :: (l.drop (p + 1)).map (rest keep) by
      rw [List.drop_eq_getElem_cons hp', List.map_cons], List.cons_append, List.take_succ_cons, List.take_zero, List.singleton_append]
  rw [e3] at e2
  clear h
  have hw1 : s.insertOwn triv keep p i = (Cells.get ((l.take p).map .live ++ rest keep l[p] :: ((l.drop p).map .live ++ R)) i).bind fun x =>
      .ok ⟨(l.take p ++ x :: l.drop p).map .live ++ R, s.size + 1⟩ := by
    rw [insertOwn, if_neg (by omega), if_pos (by omega), if_neg (by omega), e0]
    simp only [Res.ok_bind, e2]
    show (Cells.get _ i).bind _ = _
    congr 1; funext x
    rw [Cells.assign_append x (by simp; omega) (Or.inr (by cases keep <;> simp [rest]))]
    simp
  have hw2 : ∃ C : Cells α, endLife triv keep ((l.take p).map .live ++ rest keep l[p] :: ((l.drop p).map .live ++ R)) p = .ok C ∧
      C = (l.take p).map .live ++ (if keep then .live l[p] else .raw) :: ((l.drop p).map .live ++ R) := by
    refine ⟨_, ?_, rfl⟩
    rw [endLife]
    cases keep
    · simp only [Bool.false_eq_true, if_false]
      rw [Cells.destroy_append (by simp; omega) (Or.inr (by simp [rest]))]
    · simp [rest]
  obtain ⟨C, hC, hC'⟩ := hw2
  have hw3 : s.emplaceOwn triv keep p i = (Cells.get C i).bind fun x => .ok ⟨(l.take p ++ x :: l.drop p).map .live ++ R, s.size + 1⟩ := by
    rw [emplaceOwn, if_neg (by omega), if_pos (by omega), if_neg (by omega), e0]
    simp only [Res.ok_bind, e2, hC]
    show (Cells.get _ i).bind _ = _
    congr 1; funext x
    rw [hC', Cells.construct_append x (by simp; omega)]
    simp
  have fin : ∀ x, Cells.get ((l.take p).map .live ++ rest keep l[p] :: ((l.drop p).map .live ++ R)) i = .ok x → Cells.get C i = .ok x →
      ∃ s' s'', s.insertOwn triv keep p i = .ok s' ∧ s.emplaceOwn triv keep p i = .ok s'' ∧
      s'.toList = .ok (l.take p ++ x :: l.drop p) ∧ s''.toList = .ok (l.take p ++ x :: l.drop p) := by
    intro x hx hx'
    have hv : Rep (⟨(l.take p ++ x :: l.drop p).map .live ++ R, s.size + 1⟩ : SVec α) (l.take p ++ x :: l.drop p) :=
      rep_of rfl (by simp; omega)
    exact ⟨_, _, by rw [hw1, hx]; rfl, by rw [hw3, hx']; rfl, rep_toList hv, rep_toList hv⟩
  have hcell : ∀ c : Cell α, (i < p → Cells.get ((l.take p).map .live ++ c :: ((l.drop p).map .live ++ R)) i = .ok l[i]) ∧
      (p < i → Cells.get ((l.take p).map .live ++ c :: ((l.drop p).map .live ++ R)) i = .ok l[i - 1]) := by
    intro c
    refine ⟨fun hlt => ?_, fun hgt => ?_⟩
    · unfold Cells.get
      rw [List.getElem?_append_left (by simp; omega), List.getElem?_map, List.getElem?_take, if_pos hlt, List.getElem?_eq_getElem hi]
      rfl
    · unfold Cells.get
      rw [List.getElem?_append_right (by simp; omega)]
      simp only [List.length_map, List.length_take, Nat.min_eq_left hp]
      obtain ⟨k, hk⟩ : ∃ k, i - p = k + 1 := ⟨i - p - 1, by omega⟩
      rw [hk, List.getElem?_cons_succ, List.getElem?_append_left (by simp; omega), List.getElem?_map,
        List.getElem?_drop, show p + k = i - 1 by omega, List.getElem?_eq_getElem (by omega)]
      rfl
  refine ⟨fun hlt => ?_, fun heq => ?_, fun hgt => ?_⟩
  · rcases hlt with hlt | ⟨rfl, hk⟩
    · exact fin _ ((hcell _).1 hlt) (by rw [hC']; exact (hcell _).1 hlt)
    · refine fin _ ?_ ?_
      · rw [hk]; simp [rest, Cells.get, Nat.min_eq_left hp]
      · rw [hC', hk]; simp [Cells.get, Nat.min_eq_left hp]
  · obtain ⟨rfl, hk⟩ := heq
    constructor
    · have hg : Cells.get ((l.take i).map .live ++ rest keep l[i] :: ((l.drop i).map .live ++ R)) i = .ub := by
        rw [hk]; simp [rest, Cells.get, Nat.min_eq_left hp]
      rw [hw1, hg]; rfl
    · have hg : Cells.get C i = .ub := by
        rw [hC', hk]; simp [Cells.get, Nat.min_eq_left hp]
      rw [hw3, hg]; rfl
  · exact fin _ ((hcell _).2 hgt) (by rw [hC']; exact (hcell _).2 hgt)

example : Rep (⟨[.live 1, .live 2, .live 3, .raw], 3⟩ : SVec Nat) [1, 2, 3] ∧ [1, 2, 3].length < 4 ∧ 0 < [1, 2, 3].length ∧ 2 < [1, 2, 3].length :=
  ⟨⟨rfl, rfl, [.raw], rfl⟩, by decide, by decide, by decide⟩

/-- **C137 violated**: whenever two neighbouring elements behind the position differ, inserting a reference to the second one inserts
something else. -/
theorem C137_insert_own_violated {triv keep : Bool} {s : SVec α} {l : List α} (h : Rep s l) (hr : l.length < s.cap) {p i : Nat}
    (hpi : p < i) (hi : i < l.length) (hd : l[i - 1] ≠ l[i]) :
    ∃ s', s.insertOwn triv keep p i = .ok s' ∧ s'.toList ≠ .ok (l.take p ++ l[i] :: l.drop p) := by
  obtain ⟨s', _, a, _, b, _⟩ := (C137_insert_own (triv := triv) (keep := keep) h hr (p := p) (by omega) hi).2.2 hpi
  refine ⟨s', a, ?_⟩
  rw [b]
  intro e
  simp only [Res.ok.injEq, List.append_cancel_left_eq, List.cons.injEq] at e
  exact hd e.1

example : ([1, 2, 3] : List Nat)[2 - 1] ≠ [1, 2, 3][2] := by decide

/-- A full array ignores `a.insert(begin()+p, a[i])` and `a.emplace(begin()+p, a[i])`; an empty range of its own elements changes nothing
wherever it is inserted. -/
theorem C137_full_own {triv keep : Bool} {s : SVec α} {l : List α} (h : Rep s l) {p : Nat} (hp : p ≤ l.length) :
    (l.length = s.cap → ∀ i, s.insertOwn triv keep p i = .ok s ∧ s.emplaceOwn triv keep p i = .ok s) ∧
    ∀ b, b ≤ l.length → s.insertRangeOwn triv keep p b b = .ok s ∧ s.appendOwn b b = .ok s := by
  have h2 := h.size_eq
  refine ⟨fun hf i => ⟨?_, ?_⟩, fun b hb => ⟨?_, ?_⟩⟩
  · rw [insertOwn, if_neg (by omega), if_neg (by omega)]
  · rw [emplaceOwn, if_neg (by omega), if_neg (by omega)]
  · rw [insertRangeOwn, if_neg (by omega), if_pos (by omega)]
  · rw [appendOwn, if_neg (by omega), Nat.sub_self]; rfl

example : Rep (⟨[.live 1, .live 2], 2⟩ : SVec Nat) [1, 2] ∧ [1, 2].length = (⟨[.live 1, .live 2], 2⟩ : SVec Nat).cap :=
  ⟨⟨rfl, rfl, [], rfl⟩, rfl⟩

/-- `a.insert(begin()+p, begin()+b, begin()+e)`: nothing happens without room for all of it; otherwise it is correct at the end, for elements
before the position and, if moving leaves values in place, for elements starting at the position; in the other cases elements are repeated,
unspecified, or taken `e - b` places too early. -/
theorem C137_insertRange_own {triv keep : Bool} {s : SVec α} {l : List α} (h : Rep s l) {p b e : Nat} (hp : p ≤ l.length) (hbe : b < e)
    (he : e ≤ l.length) :
    (s.cap < (e - b) + l.length → s.insertRangeOwn triv keep p b e = .ok s) ∧
    ((e - b) + l.length ≤ s.cap →
      (p = l.length ∨ e ≤ p ∨ p = b ∧ keep = true →
        ∃ s', s.insertRangeOwn triv keep p b e = .ok s' ∧ s'.toList = .ok (l.take p ++ (l.drop b).take (e - b) ++ l.drop p)) ∧
      (p < l.length → b < p → ∃ s' xs, s.insertRangeOwn triv keep p b e = .ok s' ∧ s'.toList = .ok (l.take p ++ xs ++ l.drop p) ∧
        xs.length = e - b ∧ ∀ k, k < e - b → xs[k]? = l[b + k % (p - b)]?) ∧
      (p ≤ b → keep = true ∨ p + (e - b) ≤ b → ∃ s' xs, s.insertRangeOwn triv keep p b e = .ok s' ∧
        s'.toList = .ok (l.take p ++ xs ++ l.drop p) ∧
        xs.length = e - b ∧ ∀ k, k < e - b → xs[k]? = if b + k < p + (e - b) then l[b + k]? else l[b + k - (e - b)]?) ∧
      (p ≤ b → b < p + (e - b) → keep = false → s.insertRangeOwn triv keep p b e = .ub)) := by
  have h2 := h.size_eq
  refine ⟨fun hn => ?_, fun hr => ?_⟩
  · rw [insertRangeOwn, if_neg (by omega), if_neg (by omega), if_neg (by omega)]
  have hr' : (e - b) + s.toVec.size ≤ s.toVec.cap := by simp only [toVec, cap] at *; omega
  -- the vector over the same storage takes the same branch
  have hmid : p < l.length → ∀ r : Res (Vec α), s.toVec.insertRangeOwn triv keep (fun _ => true) 1 p b e = r →
      s.insertRangeOwn triv keep p b e = r.bind fun v => .ok ⟨v.buf, v.size⟩ := by
    intro hpl r hv
    rw [← hv, insertRangeOwn, Vec.insertRangeOwn, if_neg (by omega), if_neg (by omega), if_pos (by omega), if_neg (by omega),
      if_neg (by simp only [toVec]; omega), if_neg (by omega), if_pos hr', if_neg (by simp only [toVec]; omega)]
    simp only [toVec]
    cases s.buf.junkRange s.size (e - b) with
    | ub => rfl
    | loop => rfl
    | ok c1 =>
      simp only [Res.ok_bind]
      cases c1.shiftUpK triv keep p (e - b) (s.size - p) with
      | ub => rfl
      | loop => rfl
      | ok c2 =>
        simp only [Res.ok_bind]
        cases c2.assignOwn triv b p (e - b) <;> rfl
  obtain ⟨q1, q2, q3, q4⟩ := Vec.C55_insertRange_own (triv := triv) (keep := keep) (can := fun _ => true) (f := 0) h (p := p) (b := b) (e := e)
    hr' hp hbe he
  have tl : ∀ {v : Vec α} {m : List α}, v.toList = .ok m → (⟨v.buf, v.size⟩ : SVec α).toList = .ok m := fun hv => hv
  refine ⟨fun hc => ?_, fun hpl hbp => ?_, fun hpb hk => ?_, fun hpb hbn hk => ?_⟩
  · by_cases hpe : p = l.length
    · obtain ⟨s', a, r⟩ := (C137_append_own h).2 b e (Nat.le_of_lt hbe) he
      clear h q1 q2 q3 q4 hmid
      refine ⟨s', ?_, ?_⟩
      · rw [insertRangeOwn, if_neg (by omega), if_neg (by omega), if_pos (by omega), if_pos (by omega), ← a, appendOwn, if_neg (by omega)]
      · rw [r, hpe, List.take_of_length_le (i := s.cap - l.length) (by simp; omega)]; simp
    · obtain ⟨v', a, r⟩ := q1 hc
      exact ⟨_, hmid (by omega) _ a, tl r⟩
  · obtain ⟨v', xs, a, r, x⟩ := q2 hpl hbp
    exact ⟨_, xs, hmid hpl _ a, tl r, x⟩
  · obtain ⟨v', xs, a, r, x⟩ := q3 hpb hk
    exact ⟨_, xs, hmid (by omega) _ a, tl r, x⟩
  · exact hmid (by omega) _ (q4 hpb hbn hk)

example : Rep (⟨[.live 1, .live 2, .live 3, .raw, .raw], 3⟩ : SVec Nat) [1, 2, 3] ∧ 1 ≤ [1, 2, 3].length ∧ 0 < 2 ∧ 2 ≤ [1, 2, 3].length :=
  ⟨⟨rfl, rfl, [.raw, .raw], rfl⟩, by decide, by decide, by decide⟩

end SVec
end Flame
