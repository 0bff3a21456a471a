import Verif.Hybrid.ElemModel
import Verif.Array.ElemProps

/-! # C198: a `HybridVector` of `String`s -/

namespace Flame.ElemHyb
open Flame ElemVec

variable {α : Type} [DecidableEq α] {z : α} {can : Nat → Bool}

/-- The container holds exactly these texts, in an array of capacity `N` or in a vector that can grow (see C03 for capacity one). -/
def Keeps (z : α) (N : Nat) (h : EHyb (Str α)) (ls : List (List α)) : Prop :=
  match h with
  | .unset => ls = []
  | .arr s => Holds z s ls ∧ s.cap = N
  | .vec v => Holds z v ls ∧ v.cap ≠ 1

/-- What a user reads: the number of strings, and the text at every index. -/
def Reads (h : EHyb (Str α)) (ls : List (List α)) : Prop :=
  size h = ls.length ∧ ∀ i (hi : i < ls.length), textAt h i = .ok ls[i]

theorem Holds.at {v : EVec (Str α)} {ls : List (List α)} (hv : Holds z v ls) (i : Nat) (hi : i < ls.length) :
    (do let x ← obj v.mem i; x.chars) = .ok ls[i] := by
  obtain ⟨ps, ⟨rest, a, b, d⟩, rfl, h3⟩ := hv
  simp only [List.length_map] at hi
  have ho : obj v.mem i = .ok (ps[i]).1 := by
    rw [a, obj, List.getElem?_append_left (by simpa using hi)]
    simp [hi]
  have hr := readTexts_ok [ps[i]] (z := z) (by intro p hp; simp at hp; subst hp; exact h3 _ (List.getElem_mem hi))
  simp only [List.map_cons, List.map_nil, readTexts] at hr
  obtain ⟨t, ht, hr⟩ := Res.bind_eq_ok.1 hr
  simp only [Res.ok_bind] at hr
  cases hr
  rw [ho, Res.ok_bind, ht]; simp

theorem Keeps.reads {N : Nat} {h : EHyb (Str α)} {ls : List (List α)} (hh : Keeps z N h ls) : Reads h ls := by
  cases h with
  | unset => cases hh; exact ⟨rfl, fun i hi => by simp at hi⟩
  | arr s => exact ⟨hh.1.size.1, fun i hi => Holds.at hh.1 i hi⟩
  | vec v => exact ⟨hh.1.size.1, fun i hi => Holds.at hh.1 i hi⟩

theorem pushAllMove_holds {k f : Nat} : ∀ (qs : List (Str α × List α)) (w : EVec (Str α)) (ls : List (List α)), Holds z w ls →
    (∀ q ∈ qs, Str.Rep z q.1 q.2) → qs.length + w.size ≤ w.cap →
    ∃ v', pushAllMove (strCls z k) can (f + 2) w (qs.map (·.1)) = .ok (v', List.replicate qs.length Str.empty) ∧
      Holds z v' (ls ++ qs.map (·.2)) ∧ v'.cap = w.cap := by
  intro qs
  induction qs with
  | nil => intro w ls hw _ _; exact ⟨w, rfl, by simpa using hw, rfl⟩
  | cons q qs ih =>
    intro w ls hw hq hr
    simp only [List.length_cons] at hr
    obtain ⟨w1, a, b, _⟩ := (C195_append (can := can) hw (hq q (by simp)) (Or.inl (by omega)) f k).2
    have hc : w1.cap = w.cap := by
      rw [ElemVec.pushBackMove, if_pos (by omega)] at a
      obtain ⟨_, _, a⟩ := Res.bind_eq_ok.1 a
      cases a; rfl
    have h1 := hw.size.1
    have h2 := b.size.1
    simp only [List.length_append, List.length_cons, List.length_nil] at h2
    obtain ⟨v', e, g, d⟩ := ih w1 _ b (fun p hp => hq p (by simp [hp])) (by omega)
    refine ⟨v', ?_, by simpa using g, by omega⟩
    simp only [List.map_cons, pushAllMove, List.length_cons, List.replicate_succ]
    rw [a]
    simp only [Res.ok_bind]
    rw [e]; rfl

omit [DecidableEq α] in
theorem arrMove_cap {c : Cls (Str α)} : ∀ (xs : List (Str α)) (w : EVec (Str α)) (r : EVec (Str α) × List (Str α)),
    ElemArr.pushAllMove c w xs = .ok r → r.1.cap = w.cap := by
  intro xs
  induction xs with
  | nil => intro w r h; cases h; rfl
  | cons x xs ih =>
    intro w r h
    rw [ElemArr.pushAllMove] at h
    obtain ⟨a, ha, h⟩ := Res.bind_eq_ok.1 h
    obtain ⟨b, hb, h⟩ := Res.bind_eq_ok.1 h
    cases h
    have := ih _ _ hb
    rw [this]
    unfold ElemArr.pushBackMove at ha
    split at ha
    · obtain ⟨_, _, ha⟩ := Res.bind_eq_ok.1 ha
      cases ha; rfl
    · cases ha; rfl

omit [DecidableEq α] in
theorem discard_all (z : α) {s : EVec (Str α)} {ps : List (Str α × List α)} (h1 : Has s (ps.map (·.1))) :
    discard s (List.replicate ps.length Str.empty) = .ok () := by
  obtain ⟨v', a, _⟩ := clean_holds (ElemArr.emptied (z := z) h1)
  rw [discard, a]; rfl

/-- **C198, to the vector.**  Changing from an array to a vector keeps every text, in order, and leaves room for as many again. -/
theorem C198_useVector {s : EVec (Str α)} {ls : List (List α)} (hs : Holds z s ls) (hcan : ∀ n, can n = true) (f k : Nat) :
    ∃ v, useVector (strCls z k) can (f + 2) s = .ok v ∧ Holds z v ls ∧ v.cap = 2 * ls.length ∧ texts v = .ok ls := by
  have hsz := hs.size.1
  obtain ⟨ps, h1, rfl, h3⟩ := hs
  simp only [List.length_map] at hsz
  have hc : (reserve can (EVec.empty : EVec (Str α)) (s.size * 2)).cap = s.size * 2 := by
    unfold reserve
    split
    · rw [if_pos (hcan _)]
    · rename_i hn; simp only [EVec.empty] at hn ⊢; omega
  have h0 := Holds.reserve (can := can) (Holds.empty (z := z)) (s.size * 2)
  have h0s := h0.size.1
  simp only [List.length_nil] at h0s
  obtain ⟨v, a, b, d⟩ := pushAllMove_holds (can := can) (k := k) (f := f) ps _ _ h0 h3 (by omega)
  simp only [List.nil_append] at b
  refine ⟨v, ?_, b, by simp only [List.length_map]; omega, b.texts⟩
  rw [useVector, h1.elems, Res.ok_bind, a]
  simp only [Res.ok_bind]
  rw [discard_all z h1]; rfl

example := C198_useVector (can := fun _ => true) (two_holds 0) (fun _ => rfl) 0 0

theorem relocate_ok {N k : Nat} {s : EVec (Str α)} {ls : List (List α)} (hs : Holds z s ls) (hN : ls.length ≤ N) :
    ∃ v, relocate (strCls z k) N s = .ok v ∧ Holds z v ls ∧ v.cap = N := by
  obtain ⟨ps, h1, rfl, h3⟩ := hs
  simp only [List.length_map] at hN
  obtain ⟨w, a, b⟩ := ElemArr.pushAllMove_ok (k := k) ps (ElemArr.empty N) [] (ElemArr.empty_holds N) h3 (by simp [ElemArr.empty]; omega)
  obtain ⟨v', c, _⟩ := clean_holds (ElemArr.emptied (z := z) h1)
  refine ⟨w, ?_, by simpa using b, arrMove_cap _ _ _ a⟩
  rw [relocate, ElemArr.moveOf, h1.elems, Res.ok_bind, if_pos (by simpa using hN), a]
  simp only [Res.ok_bind]
  rw [c]; rfl

/-- **C198, to the array.**  Changing from a vector to an array that has room for all its strings keeps every text, in order. -/
theorem C198_useArray {v : EVec (Str α)} {ls : List (List α)} (hv : Holds z v ls) (N : Nat) (hN : ls.length ≤ N) (k : Nat) :
    ∃ s, useArray (strCls z k) N v = .ok s ∧ Holds z s ls ∧ s.cap = N ∧ texts s = .ok ls := by
  have hsz := hv.size.1
  obtain ⟨ps, h1, rfl, h3⟩ := hv
  simp only [List.length_map] at hsz hN
  obtain ⟨w, a, b⟩ := ElemArr.pushAllMove_ok (k := k) ps (ElemArr.empty N) [] (ElemArr.empty_holds N) h3 (by simp [ElemArr.empty]; omega)
  simp only [List.nil_append] at b
  obtain ⟨w1, r1, r2, _⟩ := relocate_ok (k := k) (N := N) b (by simpa using hN)
  obtain ⟨w2, q1, q2, q3⟩ := relocate_ok (k := k) (N := N) r2 (by simpa using hN)
  refine ⟨w2, ?_, q2, q3, q2.texts⟩
  rw [useArray, if_neg (by omega), h1.elems, Res.ok_bind, a]
  simp only [Res.ok_bind]
  rw [discard_all z h1]
  simp only [Res.ok_bind]
  rw [r1, Res.ok_bind, q1]

example := C198_useArray (two_holds 3) 4 (by decide) 0

omit [DecidableEq α] in
theorem arrPush_cap {c : Cls (Str α)} {w w' : EVec (Str α)} {x : Str α} (h : ElemArr.pushBack c w x = .ok w') : w'.cap = w.cap := by
  unfold ElemArr.pushBack at h
  split at h
  · obtain ⟨_, _, h⟩ := Res.bind_eq_ok.1 h
    obtain ⟨_, _, h⟩ := Res.bind_eq_ok.1 h
    cases h; rfl
  · cases h; rfl

/-- **C198, appending.**  `pushBack` appends a copy of the string, or the string itself if it is moved, in whichever storage the container
is, also where the append changes the storage. -/
theorem C198_append {h : EHyb (Str α)} {ls : List (List α)} {s : Str α} {t : List α} {N : Nat} (hN : 0 < N) (hh : Keeps z N h ls)
    (hs : Str.Rep z s t) (hcan : ∀ n, can n = true) (f k : Nat) :
    (∃ h', pushBack (strCls z k) can N (f + 2) h s = .ok h' ∧ Keeps z N h' (ls ++ [t]) ∧ Reads h' (ls ++ [t])) ∧
    (∃ h', pushBackMove (strCls z k) can N (f + 2) h s = .ok (h', Str.empty) ∧ Keeps z N h' (ls ++ [t]) ∧ Reads h' (ls ++ [t])) := by
  have arr : ∀ w : EVec (Str α), Holds z w ls → w.cap = N →
      (∃ h', pushBackArr (strCls z k) can (f + 2) w s = .ok h' ∧ Keeps z N h' (ls ++ [t])) ∧
      (∃ h', pushMoveArr (strCls z k) can (f + 2) w s = .ok (h', Str.empty) ∧ Keeps z N h' (ls ++ [t])) := by
    intro w hw hc
    have hsz := hw.size
    by_cases hr : w.size < w.cap
    · obtain ⟨⟨a, a1, a2, _⟩, ⟨b, b1, b2, _⟩⟩ := ElemArr.C196_append hw hs hr k
      refine ⟨⟨.arr a, ?_, a2, (arrPush_cap a1).trans hc⟩, ⟨.arr b, ?_, b2, ?_⟩⟩
      · rw [pushBackArr, if_pos hr, a1]; rfl
      · rw [pushMoveArr, if_pos hr, b1]; rfl
      · rw [ElemArr.pushBackMove, if_pos hr] at b1
        obtain ⟨_, _, b1⟩ := Res.bind_eq_ok.1 b1
        cases b1; exact hc
    · obtain ⟨v, u, hv, vc, _⟩ := C198_useVector (can := can) hw hcan f k
      have hg : Grows can v := Or.inr ⟨by omega, hcan _⟩
      obtain ⟨⟨a, a1, a2, _⟩, ⟨b, b1, b2, _⟩⟩ := C195_append hv hs hg f k
      refine ⟨⟨.vec a, ?_, a2, pushBack_cap _ _ _ a1 (by omega)⟩, ⟨.vec b, ?_, b2, pushBackMove_cap _ _ _ b1 (by omega)⟩⟩
      · rw [pushBackArr, if_neg hr, u, Res.ok_bind, a1]; rfl
      · rw [pushMoveArr, if_neg hr, u, Res.ok_bind, b1]; rfl
  have key : (∃ h', pushBack (strCls z k) can N (f + 2) h s = .ok h' ∧ Keeps z N h' (ls ++ [t])) ∧
      (∃ h', pushBackMove (strCls z k) can N (f + 2) h s = .ok (h', Str.empty) ∧ Keeps z N h' (ls ++ [t])) := by
    cases h with
    | unset => cases hh; exact arr _ (ElemArr.empty_holds N) rfl
    | arr w => exact arr w hh.1 hh.2
    | vec v =>
      obtain ⟨⟨a, a1, a2, _⟩, ⟨b, b1, b2, _⟩⟩ := C195_append hh.1 hs (can := can) (Or.inr ⟨hh.2, hcan _⟩) f k
      refine ⟨⟨.vec a, ?_, a2, pushBack_cap _ _ _ a1 hh.2⟩, ⟨.vec b, ?_, b2, pushBackMove_cap _ _ _ b1 hh.2⟩⟩
      · rw [pushBack, a1]; rfl
      · rw [pushBackMove, b1]; rfl
  obtain ⟨⟨a, a1, a2⟩, ⟨b, b1, b2⟩⟩ := key
  exact ⟨⟨a, a1, a2, a2.reads⟩, ⟨b, b1, b2, b2.reads⟩⟩

example := C198_append (can := fun _ => true) (h := .arr (two 0)) (N := 2) (by decide) ⟨two_holds 0, rfl⟩ ab_rep (fun _ => rfl) 0 0
example := C198_append (can := fun _ => true) (h := .unset) (N := 1) (by decide) rfl ab_rep (fun _ => rfl) 0 0

/-- **C198, violated.**  `insert(it, const String &)` in front of any string is undefined, whatever the storage. -/
theorem C198_insert_ub {h : EHyb (Str α)} {ls : List (List α)} {s : Str α} {t : List α} {N : Nat} (hh : Keeps z N h ls)
    (hs : Str.Rep z s t) (hcan : ∀ n, can n = true) (i : Nat) (hi : i < ls.length) (f k : Nat) :
    insert (strCls z k) can (f + 2) h i s = .ub := by
  cases h with
  | unset => rfl
  | arr w =>
    by_cases hr : w.size < w.cap
    · rw [insert, if_pos hr, (ElemArr.C196_insert_ub hh.1 hs [] i hi k).1 hr]; rfl
    · obtain ⟨v, u, hv, vc, _⟩ := C198_useVector (can := can) hh.1 hcan f k
      rw [insert, if_neg hr, u, Res.ok_bind]
      split
      · rw [C195_insert_ub hv hs (can := can) (Or.inr ⟨by omega, hcan _⟩) 0 (by omega) f k]; rfl
      · rfl
  | vec v =>
    rw [insert, C195_insert_ub hh.1 hs (can := can) (Or.inr ⟨hh.2, hcan _⟩) i hi f k]; rfl

example := C198_insert_ub (can := fun _ => true) (h := .arr (two 0)) (N := 2) ⟨two_holds 0, rfl⟩ ab_rep (fun _ => rfl) 0 (by decide) 0 0

/-- Where `insert(it, move(s))` in front of a string is right: an array with room, the beginning of a full array, a vector with room. -/
def moveOk (h : EHyb (Str α)) (i : Nat) : Prop :=
  match h with
  | .unset => False
  | .arr s => s.size < s.cap ∨ i = 0
  | .vec v => v.size < v.cap

/-- **C198, exactly (inserting by move).**  `insert(it, move(s))` in front of a string puts it there and empties `s` if the storage has room
or the position is the beginning of a full array; otherwise it is undefined. -/
theorem C198_insert_move_exact {h : EHyb (Str α)} {ls : List (List α)} {s : Str α} {t : List α} {N : Nat} (hh : Keeps z N h ls)
    (hs : Str.Rep z s t) (hcan : ∀ n, can n = true) (i : Nat) (hi : i < ls.length) (f k : Nat) :
    (moveOk h i → ∃ h', insertMove (strCls z k) can (f + 2) h i s = .ok (h', Str.empty) ∧ Reads h' (ls.insertIdx i t)) ∧
    (¬ moveOk h i → insertMove (strCls z k) can (f + 2) h i s = .ub) := by
  cases h with
  | unset => cases hh; simp at hi
  | arr w =>
    by_cases hr : w.size < w.cap
    · refine ⟨fun _ => ?_, fun hn => absurd (Or.inl hr) hn⟩
      obtain ⟨w', a, b, _⟩ := (ElemArr.C196_place hh.1 hs hr i (by omega) k).1
      refine ⟨.arr w', ?_, (b.size.1), fun j hj => Holds.at b j hj⟩
      rw [insertMove, if_pos hr, a]; rfl
    · obtain ⟨v, u, hv, vc, _⟩ := C198_useVector (can := can) hh.1 hcan f k
      have hvs := hv.size.1
      refine ⟨fun hm => ?_, fun hn => ?_⟩
      · have h0 : i = 0 := hm.resolve_left hr
        subst h0
        obtain ⟨v', a, b, _⟩ := (C195_insert_move_exact hv hs (can := can) (Or.inl (by omega)) 0 hi f k).1 (by omega)
        refine ⟨.vec v', ?_, b.size.1, fun j hj => Holds.at b j hj⟩
        rw [insertMove, if_neg hr, u, Res.ok_bind, if_pos rfl, a]; rfl
      · rw [insertMove, if_neg hr, u, Res.ok_bind, if_neg (fun e => hn (Or.inr e))]
  | vec v =>
    have hsz := hh.1.size
    have x := C195_insert_move_exact hh.1 hs (can := can) (Or.inr ⟨hh.2, hcan _⟩) i hi f k
    refine ⟨fun hm => ?_, fun hn => ?_⟩
    · obtain ⟨v', a, b, _⟩ := x.1 hm
      refine ⟨.vec v', ?_, b.size.1, fun j hj => Holds.at b j hj⟩
      rw [insertMove, a]; rfl
    · have : ¬ v.size < v.cap := hn
      rw [insertMove, x.2 (by omega)]; rfl

example := C198_insert_move_exact (can := fun _ => true) (h := .arr (two 0)) (N := 2) ⟨two_holds 0, rfl⟩ ab_rep (fun _ => rfl) 1 (by decide) 0 0
example := C198_insert_move_exact (can := fun _ => true) (h := .vec (two 2)) (N := 2) ⟨two_holds 2, by decide⟩ ab_rep (fun _ => rfl) 1 (by decide) 0 0

/-- **C198, the end.**  `insert(end(), s)` does what `pushBack(s)` does in an array with room and in a vector; at the end of a full array it is
undefined, by copy and by move. -/
theorem C198_insert_end {N : Nat} (hN : 0 < N) (hcan : ∀ n, can n = true) (f k : Nat) (s : Str α) :
    (∀ w ls, Keeps z N (.arr w) ls → ls.length < N →
      insert (strCls z k) can (f + 2) (.arr w) ls.length s = pushBack (strCls z k) can N (f + 2) (.arr w) s ∧
      insertMove (strCls z k) can (f + 2) (.arr w) ls.length s = pushBackMove (strCls z k) can N (f + 2) (.arr w) s) ∧
    (∀ w ls, Keeps z N (.arr w) ls → ls.length = N →
      insert (strCls z k) can (f + 2) (.arr w) ls.length s = .ub ∧ insertMove (strCls z k) can (f + 2) (.arr w) ls.length s = .ub) ∧
    (∀ v ls, Keeps z N (.vec v) ls →
      insert (strCls z k) can (f + 2) (.vec v) ls.length s = pushBack (strCls z k) can N (f + 2) (.vec v) s) := by
  refine ⟨fun w ls hw hl => ?_, fun w ls hw hl => ?_, fun v ls hv => ?_⟩
  · have h1 := hw.1.size.1
    have h2 := hw.2
    rw [insert, if_pos (by omega), insertMove, if_pos (by omega), pushBack, pushBackArr, if_pos (by omega), pushBackMove, pushMoveArr,
      if_pos (by omega), ElemArr.insert, if_neg (by omega), if_pos (by omega), if_pos h1.symm, ElemArr.insertMove, if_neg (by omega),
      if_pos (by omega), if_pos h1.symm]
    exact ⟨rfl, rfl⟩
  · have h1 := hw.1.size.1
    have h2 := hw.2
    obtain ⟨v, u, _⟩ := C198_useVector (can := can) hw.1 hcan f k
    rw [insert, if_neg (by omega), insertMove, if_neg (by omega), u, Res.ok_bind, Res.ok_bind, if_neg (by omega), if_neg (by omega)]
    exact ⟨rfl, rfl⟩
  · have hsz := hv.1.size
    rw [insert, pushBack]
    congr 1
    by_cases hr : v.size < v.cap
    · rw [ElemVec.insert, if_neg (by omega), if_pos hr, if_pos hsz.1.symm]
    · obtain ⟨ps, h1, h2, h3⟩ := hv.1
      have hn := Grows.next (can := can) h1 (Or.inr ⟨hv.2, hcan _⟩) hr
      have hw := (Holds.reserve (can := can) hv.1 (nextCap v)).size.1
      rw [ElemVec.insert, if_neg (by omega), if_neg hr, ElemVec.insert, if_neg (by omega), if_pos hn, if_pos hw.symm]
      conv => rhs; rw [ElemVec.pushBack, if_neg (by omega)]

example := C198_insert_end (z := 0) (can := fun _ => true) (N := 2) (by decide) (fun _ => rfl) 0 0 ab

omit [DecidableEq α] in
theorem arrEmplace_cap {c : Cls (Str α)} {w w' : EVec (Str α)} {i : Nat} {x : Str α} (h : ElemArr.emplace c w i x = .ok w') : w'.cap = w.cap := by
  unfold ElemArr.emplace at h
  split at h
  · cases h
  · split at h
    · split at h
      · exact arrPush_cap h
      · obtain ⟨_, _, h⟩ := Res.bind_eq_ok.1 h
        obtain ⟨_, _, h⟩ := Res.bind_eq_ok.1 h
        obtain ⟨_, _, h⟩ := Res.bind_eq_ok.1 h
        obtain ⟨_, _, h⟩ := Res.bind_eq_ok.1 h
        cases h; rfl
    · cases h; rfl

/-- **C198, `emplace`.**  `emplace(it, s)` puts a copy of `s` in front of any string or at the end, in either storage, and across the change of
storage. -/
theorem C198_emplace {h : EHyb (Str α)} {ls : List (List α)} {s : Str α} {t : List α} {N : Nat} (hN : 0 < N) (hh : Keeps z N h ls)
    (hset : h ≠ .unset) (hs : Str.Rep z s t) (hcan : ∀ n, can n = true) (i : Nat) (hi : i ≤ ls.length) (f k : Nat) :
    ∃ h', emplace (strCls z k) can (f + 3) h i s = .ok h' ∧ Keeps z N h' (ls.insertIdx i t) ∧ Reads h' (ls.insertIdx i t) := by
  have key : ∃ h', emplace (strCls z k) can (f + 3) h i s = .ok h' ∧ Keeps z N h' (ls.insertIdx i t) := by
    cases h with
    | unset => exact absurd rfl hset
    | arr w =>
      have hsz := hh.1.size
      have hwc := hh.2
      by_cases hr : w.cap = w.size
      · obtain ⟨v, u, hv, vc, _⟩ := C198_useVector (can := can) hh.1 hcan (f + 1) k
        obtain ⟨v', a, b, _⟩ := C195_emplace hv hs (can := can) (Or.inr ⟨by omega, hcan _⟩) i hi f k
        refine ⟨.vec v', ?_, b, emplace_cap _ _ _ a (by omega)⟩
        rw [emplace, if_pos hr, u, Res.ok_bind, a]; rfl
      · obtain ⟨w', a, b, _⟩ := (ElemArr.C196_place hh.1 hs (by omega) i hi k).2
        refine ⟨.arr w', ?_, b, (arrEmplace_cap a).trans hh.2⟩
        rw [emplace, if_neg hr, a]; rfl
    | vec v =>
      obtain ⟨v', a, b, _⟩ := C195_emplace hh.1 hs (can := can) (Or.inr ⟨hh.2, hcan _⟩) i hi f k
      refine ⟨.vec v', ?_, b, emplace_cap _ _ _ a hh.2⟩
      rw [emplace, a]; rfl
  obtain ⟨a, a1, a2⟩ := key
  exact ⟨a, a1, a2, a2.reads⟩

example := C198_emplace (can := fun _ => true) (h := .arr (two 0)) (N := 2) (by decide) ⟨two_holds 0, rfl⟩ (by simp) ab_rep (fun _ => rfl) 1 (by decide) 0 0

omit [DecidableEq α] in
theorem shrinkArr_ok {w : EVec (Str α)} {ls : List (List α)} {N : Nat} (hw : Holds z w ls) (hc : w.cap = N) :
    ∃ h', shrinkArr w = .ok h' ∧ Keeps z N h' ls := by
  have hsz := hw.size.1
  unfold shrinkArr
  split
  · refine ⟨.unset, rfl, List.eq_nil_of_length_eq_zero (by omega)⟩
  · exact ⟨.arr w, rfl, hw, hc⟩

theorem shrinkVec_ok {w : EVec (Str α)} {ls : List (List α)} {N k : Nat} (hw : Holds z w ls) (hc : w.cap ≠ 1) :
    ∃ h', shrinkVec (strCls z k) N w = .ok h' ∧ Keeps z N h' ls := by
  have hsz := hw.size.1
  unfold shrinkVec
  split
  · obtain ⟨s, a, b, d, _⟩ := C198_useArray hw N (by omega) k
    exact ⟨.arr s, by rw [a]; rfl, b, d⟩
  · exact ⟨.vec w, rfl, hw, hc⟩

/-- **C198, removing.**  `erase(it)` removes exactly the string at the position and `popBack` the last one, also where `erase` changes the storage
back to the array; `erase(b, e)` of at least one string is right if nothing follows the range, and undefined otherwise. -/
theorem C198_remove {h : EHyb (Str α)} {ls : List (List α)} {N : Nat} (hh : Keeps z N h ls) (k : Nat) :
    (∀ i, i < ls.length → ∃ h', erase (strCls z k) N h i = .ok h' ∧ Keeps z N h' (ls.eraseIdx i) ∧ Reads h' (ls.eraseIdx i)) ∧
    (∃ h', popBack h = .ok h' ∧ Keeps z N h' ls.dropLast ∧ Reads h' ls.dropLast) ∧
    (∀ b, b < ls.length → ∃ h', eraseRange (strCls z k) N h b ls.length = .ok h' ∧ Reads h' (ls.take b)) ∧
    (∀ b e, b < e → e < ls.length → eraseRange (strCls z k) N h b e = .ub) := by
  cases h with
  | unset =>
    cases hh
    exact ⟨fun i hi => by simp at hi, ⟨.unset, rfl, rfl, Keeps.reads (z := z) (N := N) rfl⟩, fun b hb => by simp at hb, fun b e _ he => by simp at he⟩
  | arr w =>
    obtain ⟨r1, ⟨p, p1, p2, _⟩, r3, r4⟩ := ElemArr.C196_remove hh.1 k
    refine ⟨fun i hi => ?_, ⟨.arr p, ?_, ?_⟩, fun b hb => ?_, fun b e hb he => ?_⟩
    · obtain ⟨w', a, b, _⟩ := r1 i hi
      obtain ⟨h', d, e⟩ := shrinkArr_ok b ((erase_cap a).trans hh.2)
      exact ⟨h', by rw [erase, a]; exact d, e, e.reads⟩
    · rw [popBack, p1]; rfl
    · have : Keeps z N (.arr p) ls.dropLast := ⟨p2, (popBack_cap p1).trans hh.2⟩
      exact ⟨this, this.reads⟩
    · obtain ⟨w', a, b', _⟩ := r3 b _ hb rfl
      obtain ⟨h', d, e⟩ := shrinkArr_ok (N := w'.cap) b' rfl
      exact ⟨h', by rw [eraseRange, a]; exact d, e.reads⟩
    · rw [eraseRange, r4 b e hb he]; rfl
  | vec v =>
    obtain ⟨p, p1, p2⟩ := popBack_holds hh.1
    refine ⟨fun i hi => ?_, ⟨.vec p, ?_, ?_⟩, fun b hb => ?_, fun b e hb he => ?_⟩
    · obtain ⟨w', a, b, _⟩ := (C195_erase hh.1 i hi k).1
      obtain ⟨h', d, e⟩ := shrinkVec_ok (k := k) (N := N) b (by rw [erase_cap a]; exact hh.2)
      exact ⟨h', by rw [erase, a]; exact d, e, e.reads⟩
    · rw [popBack, p1]; rfl
    · have : Keeps z N (.vec p) ls.dropLast := ⟨p2, by rw [popBack_cap p1]; exact hh.2⟩
      exact ⟨this, this.reads⟩
    · obtain ⟨w', a, b', _⟩ := (C195_eraseRange_exact hh.1 b ls.length hb (Nat.le_refl _) k).1 rfl
      have hwc : w'.cap ≠ 1 := by
        have hsz := hh.1.size.1
        rw [ElemVec.eraseRange, if_neg (by omega), if_neg (by omega)] at a
        split at a
        · obtain ⟨_, _, a⟩ := Res.bind_eq_ok.1 a
          cases a; exact hh.2
        · rw [if_pos (by omega)] at a
          obtain ⟨_, _, a⟩ := Res.bind_eq_ok.1 a
          obtain ⟨_, _, a⟩ := Res.bind_eq_ok.1 a
          cases a; exact hh.2
      obtain ⟨h', d, e⟩ := shrinkVec_ok (k := k) (N := N) b' hwc
      exact ⟨h', by rw [eraseRange, a]; exact d, e.reads⟩
    · rw [eraseRange, (C195_eraseRange_exact hh.1 b e hb (by omega) k).2 he]; rfl

example := C198_remove (h := .arr (two 0)) (N := 2) ⟨two_holds 0, rfl⟩ 0
example := C198_remove (h := .vec (two 3)) (N := 2) ⟨two_holds 3, by decide⟩ 0

/-- **C198, which storage.**  A container of strings starts in the array, leaves it when a string is appended to a full one, and returns to
it when `erase` (not `popBack`) brings a vector below the array's capacity; an array emptied by `erase` is given up. -/
theorem C198_storage {N : Nat} (hN : 0 < N) (hcan : ∀ n, can n = true) (f k : Nat) (s : Str α) {t : List α} (hs : Str.Rep z s t) :
    (∃ a, pushBack (strCls z k) can N (f + 2) .unset s = .ok (.arr a)) ∧
    (∀ w ls, Keeps z N (.arr w) ls → ls.length < N → ∃ a, pushBack (strCls z k) can N (f + 2) (.arr w) s = .ok (.arr a)) ∧
    (∀ w ls, Keeps z N (.arr w) ls → ls.length = N → ∃ v, pushBack (strCls z k) can N (f + 2) (.arr w) s = .ok (.vec v) ∧ v.cap = 2 * N) ∧
    (∀ w ls i, Keeps z N (.arr w) ls → i < ls.length → ls.length = 1 → erase (strCls z k) N (.arr w) i = .ok .unset) ∧
    (∀ w ls i, Keeps z N (.arr w) ls → i < ls.length → 1 < ls.length → ∃ a, erase (strCls z k) N (.arr w) i = .ok (.arr a)) ∧
    (∀ v ls i, Keeps z N (.vec v) ls → i < ls.length → ls.length ≤ N → ∃ a, erase (strCls z k) N (.vec v) i = .ok (.arr a)) ∧
    (∀ v ls i, Keeps z N (.vec v) ls → i < ls.length → N < ls.length → ∃ a, erase (strCls z k) N (.vec v) i = .ok (.vec a)) ∧
    (∀ w ls, Keeps z N (.arr w) ls → ∃ a, popBack (.arr w) = .ok (.arr a)) ∧
    (∀ v ls, Keeps z N (.vec v) ls → ∃ a, popBack (.vec v) = .ok (.vec a)) := by
  have room : ∀ w ls, Keeps z N (.arr w) ls → ls.length < N → ∃ a, pushBackArr (strCls z k) can (f + 2) w s = .ok (.arr a) := by
    intro w ls hw hl
    have h1 := hw.1.size.1
    have h2 := hw.2
    obtain ⟨a, a1, _⟩ := (ElemArr.C196_append hw.1 hs (by omega) k).1
    exact ⟨a, by rw [pushBackArr, if_pos (by omega), a1]; rfl⟩
  refine ⟨room (ElemArr.empty N) [] ⟨ElemArr.empty_holds N, rfl⟩ hN, fun w ls hw hl => room w ls hw hl, fun w ls hw hl => ?_, fun w ls i hw hi hl => ?_,
    fun w ls i hw hi hl => ?_, fun v ls i hv hi hl => ?_, fun v ls i hv hi hl => ?_, fun w ls hw => ?_, fun v ls hv => ?_⟩
  · have h1 := hw.1.size.1
    have h2 := hw.2
    obtain ⟨v, u, hv, vc, _⟩ := C198_useVector (can := can) hw.1 hcan f k
    have hvs := hv.size.1
    obtain ⟨a, a1, _⟩ := (C195_append hv hs (can := can) (Or.inl (by omega)) f k).1
    refine ⟨a, ?_, ?_⟩
    · show pushBackArr (strCls z k) can (f + 2) w s = _
      rw [pushBackArr, if_neg (by omega), u, Res.ok_bind, a1]; rfl
    · rw [ElemVec.pushBack, if_pos (by omega)] at a1
      obtain ⟨_, _, a1⟩ := Res.bind_eq_ok.1 a1
      obtain ⟨_, _, a1⟩ := Res.bind_eq_ok.1 a1
      cases a1; show v.cap = 2 * N; omega
  all_goals try (
    obtain ⟨w', a, b, _⟩ := (C195_erase hw.1 i hi k).1
    have hb := b.size.1
    rw [List.length_eraseIdx_of_lt hi] at hb
    have e : ElemArr.erase (strCls z k) w i = .ok w' := a
    rw [erase, e, Res.ok_bind, shrinkArr])
  · rw [if_pos (by omega)]
  · exact ⟨w', by rw [if_neg (by omega)]⟩
  all_goals try (
    obtain ⟨w', a, b, _⟩ := (C195_erase hv.1 i hi k).1
    have hb := b.size.1
    have hl2 := List.length_eraseIdx_of_lt hi
    rw [hl2] at hb
    rw [erase, a, Res.ok_bind, shrinkVec])
  · obtain ⟨x, q, _⟩ := C198_useArray b N (by omega) k
    exact ⟨x, by rw [if_pos (by omega), q]; rfl⟩
  · exact ⟨w', by rw [if_neg (by omega)]⟩
  · obtain ⟨p, p1, _⟩ := popBack_holds hw.1
    exact ⟨p, by rw [popBack, p1]; rfl⟩
  · obtain ⟨p, p1, _⟩ := popBack_holds hv.1
    exact ⟨p, by rw [popBack, p1]; rfl⟩

example := C198_storage (z := 0) (can := fun _ => true) (N := 2) (by decide) (fun _ => rfl) 0 0 ab ab_rep

theorem clean_all {h : EHyb (Str α)} {ls : List (List α)} {N : Nat} (hh : Keeps z N h ls) :
    ∃ h', clean N h = .ok h' ∧ Keeps z N h' [] := by
  refine ⟨.arr (ElemArr.empty N), ?_, ElemArr.empty_holds N, rfl⟩
  cases h with
  | unset => rfl
  | arr w => obtain ⟨_, a, _⟩ := clean_holds hh.1; rw [clean, a]; rfl
  | vec v => obtain ⟨_, a, _⟩ := clean_holds hh.1; rw [clean, a]; rfl

/-! ### Histories -/

def step (z : α) (can : Nat → Bool) (N k : Nat) (h : EHyb (Str α)) : Op α → Res (EHyb (Str α))
  | .push s _ => pushBack (strCls z k) can N (k + 3) h s
  | .pushMove s _ => do
    let r ← pushBackMove (strCls z k) can N (k + 3) h s
    .ok r.1
  | .emplace i s _ => emplace (strCls z k) can (k + 3) h i s
  | .erase i => erase (strCls z k) N h i
  | .pop => popBack h
  | .clean => clean N h

def run (z : α) (can : Nat → Bool) (N k : Nat) : EHyb (Str α) → List (Op α) → Res (EHyb (Str α))
  | h, [] => .ok h
  | h, o :: os => do
    let h ← step z can N k h o
    run z can N k h os

/-- Strings are proper, positions lie in the container, and `emplace` finds at least one string (into an unset container it is undefined). -/
def allowed (z : α) (ls : List (List α)) : Op α → Prop
  | .emplace i s t => Str.Rep z s t ∧ i ≤ ls.length ∧ ls ≠ []
  | o => ElemVec.allowed z ls o

def allAllowed (z : α) (ls : List (List α)) : List (Op α) → Prop
  | [] => True
  | o :: os => allowed z ls o ∧ allAllowed z (want ls o) os

theorem step_ok {h : EHyb (Str α)} {ls : List (List α)} {N : Nat} (hN : 0 < N) (hh : Keeps z N h ls) (hcan : ∀ n, can n = true) (k : Nat)
    (o : Op α) (ho : allowed z ls o) : ∃ h', step z can N k h o = .ok h' ∧ Keeps z N h' (want ls o) := by
  cases o with
  | push s t =>
    obtain ⟨v', a, b, _⟩ := (C198_append hN hh ho hcan (k + 1) k).1
    exact ⟨v', a, b⟩
  | pushMove s t =>
    obtain ⟨v', a, b, _⟩ := (C198_append hN hh ho hcan (k + 1) k).2
    refine ⟨v', ?_, b⟩
    show (do let r ← pushBackMove (strCls z k) can N (k + 3) h s; Res.ok r.1) = _
    rw [a]; rfl
  | emplace i s t =>
    have hset : h ≠ .unset := by rintro rfl; exact ho.2.2 hh
    obtain ⟨v', a, b, _⟩ := C198_emplace hN hh hset ho.1 hcan i ho.2.1 k k
    exact ⟨v', a, b⟩
  | erase i =>
    obtain ⟨v', a, b, _⟩ := (C198_remove hh k).1 i ho
    exact ⟨v', a, b⟩
  | pop =>
    obtain ⟨v', a, b, _⟩ := (C198_remove hh k).2.1
    exact ⟨v', a, b⟩
  | clean => exact clean_all hh

/-- **C198_partial.**  Every sequence of appending (by copy or move), `emplace` beside a string, `erase(it)`, `popBack` and `clean` on a default
constructed container is defined and leaves the texts a list would have, however often the storage changes, as long as memory can be had.
Missing: `insert` in front of a string and erasing an inner range, which are undefined. -/
theorem C198_history_partial (N : Nat) (hN : 0 < N) (os : List (Op α)) (hcan : ∀ n, can n = true) (k : Nat) (ho : allAllowed z [] os) :
    ∃ h, run z can N k .unset os = .ok h ∧ Reads h (wants [] os) := by
  have gen : ∀ (os : List (Op α)) (h : EHyb (Str α)) (ls : List (List α)), Keeps z N h ls → allAllowed z ls os →
      ∃ h', run z can N k h os = .ok h' ∧ Reads h' (wants ls os) := by
    intro os
    induction os with
    | nil => intro h ls hh _; exact ⟨h, rfl, hh.reads⟩
    | cons o os ih =>
      rintro h ls hh ⟨h1, h2⟩
      obtain ⟨v1, a, b⟩ := step_ok hN hh hcan k o h1
      obtain ⟨v', e, f⟩ := ih v1 _ b h2
      refine ⟨v', ?_, f⟩
      rw [run, a]; exact e
  exact gen os _ _ rfl ho

/-- Capacity one: the second string moves both to a vector; erasing leaves one, which stays there, and erasing that one too goes back. -/
example := C198_history_partial (z := 0) (can := fun _ => true) 1 (by decide)
  [.push ab [5, 6], .emplace 0 ab [5, 6], .pushMove Str.empty [], .erase 1, .erase 0, .erase 0] (fun _ => rfl) 0
  ⟨ab_rep, ⟨ab_rep, by decide, by simp [want]⟩, Or.inr ⟨rfl, rfl⟩, (by decide : 1 < 3), (by decide : 0 < 2), (by decide : 0 < 1), trivial⟩

end Flame.ElemHyb
