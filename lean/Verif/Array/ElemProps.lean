import Verif.Array.ElemModel
import Verif.Vector.ElemProps

/-! # C196: a fixed-capacity `Array` of `String`s -/

namespace Flame.ElemArr
open Flame ElemVec

variable {α : Type} [DecidableEq α] {z : α}

/-- **C196, full.**  An array without room ignores every insertion of a string, and a range that does not fit is ignored as a whole. -/
theorem C196_full {v : EVec (Str α)} {ls : List (List α)} (hv : Holds z v ls) (s : Str α) (ss : List (Str α)) (i : Nat) (hi : i ≤ ls.length) (k : Nat) :
    (v.size = v.cap → pushBack (strCls z k) v s = .ok v ∧ pushBackMove (strCls z k) v s = .ok (v, s) ∧ insert (strCls z k) v i s = .ok v ∧
      insertMove (strCls z k) v i s = .ok (v, s) ∧ emplace (strCls z k) v i s = .ok v) ∧
    (v.cap < ss.length + v.size → insertRange (strCls z k) v i ss = .ok v) := by
  have hsz := hv.size
  refine ⟨fun h => ⟨?_, ?_, ?_, ?_, ?_⟩, fun h => ?_⟩
  · rw [pushBack, if_neg (by omega)]
  · rw [pushBackMove, if_neg (by omega)]
  · rw [insert, if_neg (by omega), if_neg (by omega)]
  · rw [insertMove, if_neg (by omega), if_neg (by omega)]
  · rw [emplace, if_neg (by omega), if_neg (by omega)]
  · rw [insertRange, if_neg (by omega), if_neg (by omega), if_neg (by omega)]

example := C196_full (two_holds 0) ab [ab] 1 (by decide) 0

theorem pushBack_eq {v : EVec (Str α)} (s : Str α) (k : Nat) (hr : v.size < v.cap) :
    pushBack (strCls z k) v s = ElemVec.pushBack (strCls z k) (fun _ => false) 2 v s := by
  rw [pushBack, if_pos hr, ElemVec.pushBack, if_pos (by omega)]

theorem pushBackMove_eq {v : EVec (Str α)} (s : Str α) (k : Nat) (hr : v.size < v.cap) :
    pushBackMove (strCls z k) v s = ElemVec.pushBackMove (strCls z k) (fun _ => false) 2 v s := by
  rw [pushBackMove, if_pos hr, ElemVec.pushBackMove, if_pos (by omega)]

/-- **C196, appending.**  With room, `pushBack` appends a copy of the string, or the string itself if it is moved. -/
theorem C196_append {v : EVec (Str α)} {ls : List (List α)} {s : Str α} {t : List α} (hv : Holds z v ls) (hs : Str.Rep z s t)
    (hr : v.size < v.cap) (k : Nat) :
    (∃ v', pushBack (strCls z k) v s = .ok v' ∧ Holds z v' (ls ++ [t]) ∧ texts v' = .ok (ls ++ [t])) ∧
    (∃ v', pushBackMove (strCls z k) v s = .ok (v', Str.empty) ∧ Holds z v' (ls ++ [t]) ∧ texts v' = .ok (ls ++ [t])) := by
  rw [pushBack_eq s k hr, pushBackMove_eq s k hr]
  exact C195_append hv hs (Or.inl hr) 0 k

example := C196_append (two_holds 3) ab_rep (by decide) 0

/-- **C196, violated.**  With room, `insert(it, const String &)` in front of an element is undefined, and so is inserting a range that fits. -/
theorem C196_insert_ub {v : EVec (Str α)} {ls : List (List α)} {s : Str α} {t : List α} (hv : Holds z v ls) (hs : Str.Rep z s t)
    (ss : List (Str α)) (i : Nat) (hi : i < ls.length) (k : Nat) :
    (v.size < v.cap → insert (strCls z k) v i s = .ub) ∧
    ((s :: ss).length + v.size ≤ v.cap → insertRange (strCls z k) v i (s :: ss) = .ub) := by
  have hsz := hv.size
  refine ⟨fun hr => ?_, fun hr => ?_⟩
  · have h := C195_insert_ub (can := fun _ => false) hv hs (Or.inl hr) i hi 0 k
    rw [ElemVec.insert, if_neg (by omega), if_pos hr, if_neg (by omega)] at h
    rw [insert, if_neg (by omega), if_pos hr, if_neg (by omega)]
    exact h
  · have h := C195_insertRange_ub (can := fun _ => false) hv hs ss i hi 0 k (Or.inl hr)
    rw [ElemVec.insertRange, if_neg (by omega), if_neg (by simp), if_pos hr, if_neg (by omega)] at h
    rw [insertRange, if_neg (by omega), if_neg (by simp), if_pos hr, if_neg (by omega)]
    exact h

example := C196_insert_ub (two_holds 3) ab_rep [ab] 1 (by decide) 0

/-- **C196, inserting by move, `emplace`.**  With room, `insert(it, move(s))` puts the string in front of any element and empties `s`; `emplace`
puts a copy there. -/
theorem C196_place {v : EVec (Str α)} {ls : List (List α)} {s : Str α} {t : List α} (hv : Holds z v ls) (hs : Str.Rep z s t)
    (hr : v.size < v.cap) (i : Nat) (hi : i ≤ ls.length) (k : Nat) :
    (∃ v', insertMove (strCls z k) v i s = .ok (v', Str.empty) ∧ Holds z v' (ls.insertIdx i t) ∧ texts v' = .ok (ls.insertIdx i t)) ∧
    (∃ v', emplace (strCls z k) v i s = .ok v' ∧ Holds z v' (ls.insertIdx i t) ∧ texts v' = .ok (ls.insertIdx i t)) := by
  have hsz := hv.size
  by_cases he : i = ls.length
  · have e : ls.insertIdx i t = ls ++ [t] := by rw [he, ← takeDropInsert _ _ _ (Nat.le_refl _)]; simp
    rw [e]
    obtain ⟨a, b⟩ := C196_append hv hs hr k
    rw [insertMove, if_neg (by omega), if_pos hr, if_pos (by omega), emplace, if_neg (by omega), if_pos hr, if_pos (by omega)]
    exact ⟨b, a⟩
  · refine ⟨?_, ?_⟩
    · obtain ⟨v', a, b⟩ := (C195_insert_move_exact (can := fun _ => false) hv hs (Or.inl hr) i (by omega) 0 k).1 hr
      refine ⟨v', ?_, b⟩
      rw [ElemVec.insertMove, if_neg (by omega), if_pos hr, if_neg (by omega)] at a
      rw [insertMove, if_neg (by omega), if_pos hr, if_neg (by omega)]
      exact a
    · obtain ⟨v', a, b⟩ := C195_emplace (can := fun _ => false) hv hs (Or.inl hr) i hi 0 k
      refine ⟨v', ?_, b⟩
      rw [ElemVec.emplace, if_neg (by omega), if_pos hr, if_neg (by omega)] at a
      rw [emplace, if_neg (by omega), if_pos hr, if_neg (by omega)]
      obtain ⟨ps, h1, rfl, h3⟩ := hv
      simp only [List.length_map] at hi
      obtain ⟨S, o, _⟩ := open1_str (z := z) h1 i k (by simp; omega) hr
      rw [o] at a ⊢
      simp only [Res.ok_bind] at a ⊢
      obtain ⟨s', hc, _, _⟩ := Str.copy_ok hs
      have hcc : (strCls z k).copy s = .ok s' := hc
      have hd := destroy_ok [Str.empty] (((ps.map (·.1)).take i).map some) (((ps.map (·.1)).drop i).map some ++ S)
      have hl : (((ps.map (·.1)).take i).map (some : Str α → Option (Str α))).length = i := by simp; omega
      rw [hl] at hd
      simp only [List.length_cons, List.length_nil, List.map_cons, List.map_nil, List.cons_append, List.nil_append, List.replicate_succ,
        List.replicate_zero, Nat.zero_add] at hd
      rw [hcc] at a ⊢
      rw [hd]
      simp only [Res.ok_bind] at a ⊢
      rw [put_mid _ _ _ _ _ hl.symm] at a ⊢
      exact a

example := C196_place (two_holds 3) ab_rep (by decide) 1 (by decide) 0

/-- **C196, removing.**  `erase(it)` removes exactly the text at the position and `popBack` the last one; `erase(b, e)` of at least one element
is right if nothing follows the range and undefined otherwise. -/
theorem C196_remove {v : EVec (Str α)} {ls : List (List α)} (hv : Holds z v ls) (k : Nat) :
    (∀ i, i < ls.length → ∃ v', erase (strCls z k) v i = .ok v' ∧ Holds z v' (ls.eraseIdx i) ∧ texts v' = .ok (ls.eraseIdx i)) ∧
    (∃ v', popBack v = .ok v' ∧ Holds z v' ls.dropLast ∧ texts v' = .ok ls.dropLast) ∧
    (∀ b e, b < e → e = ls.length →
      ∃ v', eraseRange (strCls z k) v b e = .ok v' ∧ Holds z v' (ls.take b) ∧ texts v' = .ok (ls.take b)) ∧
    (∀ b e, b < e → e < ls.length → eraseRange (strCls z k) v b e = .ub) := by
  have hsz := hv.size.1
  have er : ∀ b e, b < e → e ≤ ls.length → eraseRange (strCls z k) v b e = ElemVec.eraseRange (strCls z k) v b e := by
    intro b e hb he
    rw [eraseRange, ElemVec.eraseRange]
    by_cases h : e = b + v.size
    · rw [if_neg (by omega), if_pos h, if_neg (by omega), if_neg (by omega), if_pos (by omega)]
    · rw [if_neg (by omega), if_neg h, if_pos (by omega), if_neg (by omega), if_neg (by omega), if_neg (by omega), if_pos (by omega)]
  obtain ⟨w, p1, p2⟩ := popBack_holds hv
  refine ⟨fun i hi => ?_, ⟨w, p1, p2, p2.texts⟩, fun b e hb he => ?_, fun b e hb he => ?_⟩
  · obtain ⟨v', a, b, d, _⟩ := (C195_erase hv i hi k).1
    exact ⟨v', a, b, d⟩
  · rw [er b e hb (by omega)]
    exact (C195_eraseRange_exact hv b e hb (by omega) k).1 he
  · rw [er b e hb (by omega)]
    exact (C195_eraseRange_exact hv b e hb (by omega) k).2 he

example := C196_remove (two_holds 3) 0

theorem pushAll_ok {k : Nat} : ∀ (qs : List (Str α × List α)) (w : EVec (Str α)) (ls : List (List α)), Holds z w ls →
    (∀ q ∈ qs, Str.Rep z q.1 q.2) → qs.length + w.size ≤ w.cap →
    ∃ v', pushAll (strCls z k) w (qs.map (·.1)) = .ok v' ∧ Holds z v' (ls ++ qs.map (·.2)) ∧ v'.cap = w.cap := by
  intro qs
  induction qs with
  | nil => intro w ls hw _ _; exact ⟨w, rfl, by simpa using hw, rfl⟩
  | cons q qs ih =>
    intro w ls hw hq hr
    simp only [List.length_cons] at hr
    obtain ⟨w1, a, b, _⟩ := (C196_append hw (hq q (by simp)) (by omega) k).1
    have hc : w1.cap = w.cap := by
      rw [pushBack, if_pos (by omega)] at a
      obtain ⟨_, _, a⟩ := Res.bind_eq_ok.1 a
      obtain ⟨_, _, a⟩ := Res.bind_eq_ok.1 a
      cases a; rfl
    have h1 := hw.size.1
    have h2 := b.size.1
    simp only [List.length_append, List.length_cons, List.length_nil] at h2
    obtain ⟨v', e, g, d⟩ := ih w1 _ b (fun p hp => hq p (by simp [hp])) (by omega)
    refine ⟨v', ?_, by simpa using g, by rw [d, hc]⟩
    simp only [List.map_cons, pushAll]
    rw [a]; exact e

theorem pushAllMove_ok {k : Nat} : ∀ (qs : List (Str α × List α)) (w : EVec (Str α)) (ls : List (List α)), Holds z w ls →
    (∀ q ∈ qs, Str.Rep z q.1 q.2) → qs.length + w.size ≤ w.cap →
    ∃ v', pushAllMove (strCls z k) w (qs.map (·.1)) = .ok (v', List.replicate qs.length Str.empty) ∧ Holds z v' (ls ++ qs.map (·.2)) := by
  intro qs
  induction qs with
  | nil => intro w ls hw _ _; exact ⟨w, rfl, by simpa using hw⟩
  | cons q qs ih =>
    intro w ls hw hq hr
    simp only [List.length_cons] at hr
    obtain ⟨w1, a, b, _⟩ := (C196_append hw (hq q (by simp)) (by omega) k).2
    have hc : w1.cap = w.cap := by
      rw [pushBackMove, if_pos (by omega)] at a
      obtain ⟨_, _, a⟩ := Res.bind_eq_ok.1 a
      cases a; rfl
    have h1 := hw.size.1
    have h2 := b.size.1
    simp only [List.length_append, List.length_cons, List.length_nil] at h2
    obtain ⟨v', e, g⟩ := ih w1 _ b (fun p hp => hq p (by simp [hp])) (by omega)
    refine ⟨v', ?_, by simpa using g⟩
    simp only [List.map_cons, pushAllMove, List.length_cons, List.replicate_succ]
    rw [a]
    simp only [Res.ok_bind]
    rw [e]; rfl

theorem putAll_ok {E : Type} : ∀ (ys xs : List E) (P S : Slots E), xs.length = ys.length →
    putAll P.length ys (P ++ (xs.map some ++ S)) = P ++ (ys.map some ++ S) := by
  intro ys
  induction ys with
  | nil => intro xs P S h; have := List.eq_nil_of_length_eq_zero (by simpa using h); subst this; rfl
  | cons y ys ih =>
    intro xs P S h
    cases xs with
    | nil => simp at h
    | cons x xs =>
      have := ih xs (P ++ [some y]) S (by simpa using h)
      simp only [List.length_append, List.length_cons, List.length_nil, List.append_assoc, List.cons_append, List.nil_append] at this
      simp only [List.map_cons, List.cons_append, putAll]
      rw [← this]
      congr 1
      simp

omit [DecidableEq α] in
theorem emptied {src : EVec (Str α)} {ps : List (Str α × List α)} (h1 : Has src (ps.map (·.1))) :
    Holds z ⟨putAll 0 (List.replicate ps.length Str.empty) src.mem, src.cap, src.size⟩ (List.replicate ps.length []) := by
  obtain ⟨rest, a, b, d⟩ := h1
  have := putAll_ok (List.replicate ps.length (Str.empty : Str α)) (ps.map (·.1)) [] rest (by simp)
  simp only [List.length_nil, List.nil_append] at this
  refine ⟨List.replicate ps.length (Str.empty, []), has_of (S := rest) ?_ ?_ ?_, by simp, ?_⟩
  · rw [a, this]; simp
  · rw [← b, a]; simp
  · rw [d]; simp
  · intro p hp
    have := List.eq_of_mem_replicate hp
    subst this; exact Or.inr ⟨rfl, rfl⟩

omit [DecidableEq α] in
theorem empty_holds (n : Nat) : Holds z (empty n : EVec (Str α)) [] :=
  ⟨[], ⟨List.replicate n none, rfl, by simp [empty], rfl⟩, rfl, by simp⟩

/-- **C196, erasing nothing.**  An empty range, wherever it lies, and a range whose end lies before its beginning erase nothing. -/
theorem C196_eraseRange_empty {v : EVec (Str α)} {ls : List (List α)} (hv : Holds z v ls) (b e : Nat) (hb : b ≤ ls.length) (he : e ≤ b) (k : Nat) :
    eraseRange (strCls z k) v b e = .ok v := by
  have hs := hv.size.1
  unfold eraseRange
  rw [if_neg (by omega)]
  by_cases h : e = b + v.size
  · have h0 : v.size = 0 := by omega
    rw [if_pos h]
    unfold ElemVec.clean
    rw [h0]
    simp only [destroy, Res.ok_bind]
    obtain ⟨m, c, n⟩ := v
    simp only at h0
    rw [h0]
  · rw [if_neg h, if_neg (by omega)]

example := C196_eraseRange_empty (two_holds 3) 2 2 (by decide) (by decide) 0
example := C196_eraseRange_empty (two_holds 3) 2 1 (by decide) (by decide) 0

/-- **C196, copies.**  Copy construction and copy assignment give the target the source's texts, whatever it held, if they fit; otherwise a new
array is empty and an old one keeps its texts. -/
theorem C196_copy {v src : EVec (Str α)} {ls ms : List (List α)} (hv : Holds z v ls) (hs : Holds z src ms) (n k : Nat) :
    (∃ w, copyOf (strCls z k) n src = .ok w ∧ texts w = .ok (if ms.length ≤ n then ms else [])) ∧
    (∃ w, assign (strCls z k) v src = .ok w ∧ texts w = .ok (if ms.length ≤ v.cap then ms else ls)) := by
  obtain ⟨ps, h1, rfl, h3⟩ := hs
  refine ⟨?_, ?_⟩
  · rw [copyOf, h1.elems, Res.ok_bind]
    simp only [List.length_map]
    by_cases hn : ps.length ≤ n
    · obtain ⟨w, a, b, _⟩ := pushAll_ok (k := k) ps (empty n) [] (empty_holds n) h3 (by simp [empty]; omega)
      rw [if_pos hn, if_pos hn]
      exact ⟨w, a, by simpa using b.texts⟩
    · rw [if_neg hn, if_neg hn]
      exact ⟨_, rfl, (empty_holds (z := z) n).texts⟩
  · rw [assign, h1.elems, Res.ok_bind]
    simp only [List.length_map]
    by_cases hn : ps.length ≤ v.cap
    · obtain ⟨v1, a, b, d⟩ := clean_holds hv
      have hb := b.size.1
      simp only [List.length_nil] at hb
      obtain ⟨w, e, g, _⟩ := pushAll_ok (k := k) ps v1 [] b h3 (by omega)
      rw [if_neg (by omega), if_pos hn, a, Res.ok_bind]
      exact ⟨w, e, by simpa using g.texts⟩
    · rw [if_pos (by omega), if_neg hn]
      exact ⟨v, rfl, hv.texts⟩

example := C196_copy (two_holds 3) (two_holds 0) 1 0

/-- **C196, moves.**  Move construction and move assignment of an array that fits hand over all texts; the source keeps its size, and all its
strings are empty.  One that does not fit is left as it was. -/
theorem C196_move {v src : EVec (Str α)} {ls ms : List (List α)} (hv : Holds z v ls) (hs : Holds z src ms) (n k : Nat) :
    (∃ w s', moveOf (strCls z k) n src = .ok (w, s') ∧ texts w = .ok (if ms.length ≤ n then ms else []) ∧
      texts s' = .ok (if ms.length ≤ n then List.replicate ms.length [] else ms)) ∧
    (∃ w s', moveAssign (strCls z k) v src = .ok (w, s') ∧ texts w = .ok (if ms.length ≤ v.cap then ms else ls) ∧
      texts s' = .ok (if ms.length ≤ v.cap then List.replicate ms.length [] else ms)) := by
  have hst := hs.texts
  obtain ⟨ps, h1, rfl, h3⟩ := hs
  have hem := emptied (z := z) h1
  refine ⟨?_, ?_⟩
  · rw [moveOf, h1.elems, Res.ok_bind]
    simp only [List.length_map]
    by_cases hn : ps.length ≤ n
    · obtain ⟨w, a, b⟩ := pushAllMove_ok (k := k) ps (empty n) [] (empty_holds n) h3 (by simp [empty]; omega)
      simp only [if_pos hn]
      rw [a]
      exact ⟨w, _, rfl, by simpa using b.texts, hem.texts⟩
    · simp only [if_neg hn]
      exact ⟨_, _, rfl, (empty_holds (z := z) n).texts, hst⟩
  · rw [moveAssign, h1.elems, Res.ok_bind]
    simp only [List.length_map]
    by_cases hn : ps.length ≤ v.cap
    · obtain ⟨v1, a, b, d⟩ := clean_holds hv
      have hb := b.size.1
      simp only [List.length_nil] at hb
      obtain ⟨w, e, g⟩ := pushAllMove_ok (k := k) ps v1 [] b h3 (by omega)
      simp only [if_pos hn]
      rw [if_neg (by omega), a, Res.ok_bind, e]
      exact ⟨w, _, rfl, by simpa using g.texts, hem.texts⟩
    · simp only [if_neg hn]
      rw [if_pos (by omega)]
      exact ⟨v, src, rfl, hv.texts, hst⟩

example := C196_move (two_holds 3) (two_holds 0) 2 0

end Flame.ElemArr
