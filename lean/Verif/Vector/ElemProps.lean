import Verif.Vector.ElemLemmas

/-!
# C195: a `Vector` of `String`s

`Holds z v ls`: the elements of `v` are proper strings with the texts `ls`.  `texts` is what a program sees iterating over vector and
strings.
-/

namespace Flame.ElemVec
open Flame

variable {α : Type} [DecidableEq α] {z : α} {can : Nat → Bool}

/-- The elements of `v` are proper strings (`Str.Rep`) with the texts `ls`. -/
def Holds (z : α) (v : EVec (Str α)) (ls : List (List α)) : Prop :=
  ∃ ps : List (Str α × List α), Has v (ps.map (·.1)) ∧ ls = ps.map (·.2) ∧ ∀ p ∈ ps, Str.Rep z p.1 p.2

theorem strSteals (z : α) (k : Nat) : Steals (strCls z k) (fun s => ∃ l, Str.Rep z s l) where
  dflt := ⟨[], Or.inr ⟨rfl, rfl⟩⟩
  move := fun _ => rfl
  massign := by
    rintro d s ⟨l, hd⟩
    obtain ⟨s1, a, _⟩ := Str.clean_ok hd
    simp [strCls, Str.moveAssign, a]

theorem readTexts_ok : ∀ ps : List (Str α × List α), (∀ p ∈ ps, Str.Rep z p.1 p.2) →
    readTexts (ps.map (·.1)) = .ok (ps.map (·.2)) := by
  intro ps
  induction ps with
  | nil => intro _; rfl
  | cons p ps ih =>
    intro h
    simp only [List.map_cons, readTexts]
    rw [(h p (by simp)).chars, Res.ok_bind, ih (fun q hq => h q (by simp [hq]))]
    rfl

theorem Holds.texts {v : EVec (Str α)} {ls : List (List α)} (h : Holds z v ls) : texts v = .ok ls := by
  obtain ⟨ps, h1, rfl, h3⟩ := h
  unfold ElemVec.texts
  rw [h1.elems, Res.ok_bind, readTexts_ok ps h3]

omit [DecidableEq α] in
theorem Holds.size {v : EVec (Str α)} {ls : List (List α)} (h : Holds z v ls) : v.size = ls.length ∧ v.size ≤ v.cap := by
  obtain ⟨ps, h1, rfl, _⟩ := h
  exact ⟨by rw [h1.choose_spec.2.2]; simp, h1.le⟩

omit [DecidableEq α] in
theorem Holds.reserve {v : EVec (Str α)} {ls : List (List α)} (h : Holds z v ls) (n : Nat) : Holds z (reserve can v n) ls := by
  obtain ⟨ps, h1, h2, h3⟩ := h
  exact ⟨ps, h1.reserve n, h2, h3⟩

omit [DecidableEq α] in
theorem Holds.empty : Holds z (EVec.empty : EVec (Str α)) [] := ⟨[], ⟨[], rfl, rfl, rfl⟩, rfl, by simp⟩

theorem mem_insert {β : Type} {l : List β} {i : Nat} {x y : β} (h : y ∈ l.insertIdx i x) : y = x ∨ y ∈ l := by
  by_cases hi : i ≤ l.length
  · exact (List.mem_insertIdx hi).1 h
  · rw [List.insertIdx_of_length_lt (by omega)] at h; exact Or.inr h

omit [DecidableEq α] in
theorem Holds.ofInsert {v : EVec (Str α)} {ps : List (Str α × List α)} (i : Nat) (hi : i ≤ ps.length) (s : Str α) (k : List α)
    (hs : Str.Rep z s k) (h3 : ∀ p ∈ ps, Str.Rep z p.1 p.2) (h : Has v ((ps.map (·.1)).insertIdx i s)) :
    Holds z v ((ps.map (·.2)).insertIdx i k) := by
  refine ⟨ps.insertIdx i (s, k), ?_, ?_, ?_⟩
  · rw [← takeDropInsert _ _ _ hi]
    rw [← takeDropInsert _ _ _ (by simpa using hi)] at h
    simpa using h
  · rw [← takeDropInsert _ _ _ hi, ← takeDropInsert _ _ _ (by simpa using hi)]
    simp
  · intro p hp
    rcases mem_insert hp with rfl | hp
    · exact hs
    · exact h3 p hp

/-- **C195, appending.**  `pushBack(const &)` (and `emplaceBack` of a string) appends a copy; `pushBack(&&)` appends the string itself and
leaves its argument empty.  The other texts stay. -/
theorem C195_append {v : EVec (Str α)} {ls : List (List α)} {s : Str α} {t : List α} (hv : Holds z v ls) (hs : Str.Rep z s t)
    (hg : Grows can v) (f k : Nat) :
    (∃ v', pushBack (strCls z k) can (f + 2) v s = .ok v' ∧ Holds z v' (ls ++ [t]) ∧ texts v' = .ok (ls ++ [t])) ∧
    (∃ v', pushBackMove (strCls z k) can (f + 2) v s = .ok (v', Str.empty) ∧ Holds z v' (ls ++ [t]) ∧ texts v' = .ok (ls ++ [t])) := by
  have key : ∀ (w : EVec (Str α)) (f : Nat), Holds z w ls → w.size < w.cap →
      (∃ v', pushBack (strCls z k) can (f + 1) w s = .ok v' ∧ Holds z v' (ls ++ [t])) ∧
      (∃ v', pushBackMove (strCls z k) can (f + 1) w s = .ok (v', Str.empty) ∧ Holds z v' (ls ++ [t])) := by
    rintro w f ⟨ps, h1, rfl, h3⟩ hr
    obtain ⟨s', hc, hfull, _⟩ := Str.copy_ok hs
    refine ⟨?_, ?_⟩
    · obtain ⟨v', a, b, _⟩ := pushBack_ok (c := strCls z k) (can := can) h1 (x := s) (y := s') hc hr f
      refine ⟨v', a, ps ++ [(s', t)], by simpa using b, by simp, ?_⟩
      intro p hp
      rcases List.mem_append.1 hp with hp | hp
      · exact h3 p hp
      · simp only [List.mem_singleton] at hp; subst hp; exact Or.inl hfull
    · obtain ⟨v', a, b, _⟩ := pushBackMove_ok (can := can) (strSteals z k) h1 s hr f
      refine ⟨v', a, ps ++ [(s, t)], by simpa using b, by simp, ?_⟩
      intro p hp
      rcases List.mem_append.1 hp with hp | hp
      · exact h3 p hp
      · simp only [List.mem_singleton] at hp; subst hp; exact hs
  by_cases hr : v.size < v.cap
  · obtain ⟨⟨a, a1, a2⟩, ⟨b, b1, b2⟩⟩ := key v (f + 1) hv hr
    exact ⟨⟨a, a1, a2, a2.texts⟩, ⟨b, b1, b2, b2.texts⟩⟩
  · have he : ¬ v.size ≠ v.cap := by have := hv.size.2; omega
    obtain ⟨ps, h1, h2, h3⟩ := hv
    obtain ⟨⟨a, a1, a2⟩, ⟨b, b1, b2⟩⟩ := key _ f (Holds.reserve (can := can) ⟨ps, h1, h2, h3⟩ (nextCap v)) (hg.next h1 hr)
    refine ⟨⟨a, ?_, a2, a2.texts⟩, ⟨b, ?_, b2, b2.texts⟩⟩
    · rw [pushBack, if_neg he]; exact a1
    · rw [pushBackMove, if_neg he]; exact b1

/-- The string `"ab"` (characters 5, 6) in an allocation of three cells. -/
def ab : Str Nat := ⟨[some 5, some 6, some 0], 3, 2⟩

theorem ab_rep : Str.Rep 0 ab [5, 6] :=
  Or.inl ⟨rfl, rfl, by decide, by
    intro i hi
    match i, hi with
    | 0, _ => rfl
    | 1, _ => rfl
    | 2, _ => rfl⟩

/-- Two strings in a vector with room for `n` more. -/
def two (n : Nat) : EVec (Str Nat) := ⟨[some ab, some Str.empty] ++ List.replicate n none, n + 2, 2⟩

theorem two_holds (n : Nat) : Holds 0 (two n) [[5, 6], []] :=
  ⟨[(ab, [5, 6]), (Str.empty, [])], ⟨List.replicate n none, rfl, by simp [two], rfl⟩, rfl, by
    intro p hp
    simp only [List.mem_cons, List.not_mem_nil, or_false] at hp
    rcases hp with rfl | rfl
    · exact ab_rep
    · exact Or.inr ⟨rfl, rfl⟩⟩

example := C195_append (can := fun _ => true) (two_holds 0) ab_rep (Or.inr ⟨by decide, rfl⟩) 0 0
example := C195_append (can := fun _ => false) (two_holds 3) ab_rep (Or.inl (by decide)) 0 0

/-- What opening a cell in front of an element leaves: an empty string there. -/
theorem open1_str {v : EVec (Str α)} {xs : List (Str α)} (hv : Has v xs) (i k : Nat) (hi : i ≤ xs.length) (hr : v.size < v.cap) :
    ∃ S, open1 (strCls z k) v i = .ok ((xs.take i).map some ++ some Str.empty :: ((xs.drop i).map some ++ S)) ∧
      xs.length + 1 + S.length = v.cap := by
  have hs : v.size = xs.length := hv.choose_spec.2.2
  obtain ⟨S, a, b⟩ := open_ok (strSteals z k) hv i 0 hi (by omega)
  refine ⟨S, ?_, b⟩
  unfold open1
  rw [a]; rfl

/-- **C195, violated.**  `insert(it, const String &)` anywhere but at the end is undefined, whatever the vector, the position and the
string: the cell opened for the new element holds a string without storage, and `String`'s copy assignment into such a string writes past
the allocation it makes (C18). -/
theorem C195_insert_ub {v : EVec (Str α)} {ls : List (List α)} {s : Str α} {t : List α} (hv : Holds z v ls) (hs : Str.Rep z s t)
    (hg : Grows can v) (i : Nat) (hi : i < ls.length) (f k : Nat) : insert (strCls z k) can (f + 2) v i s = .ub := by
  have key : ∀ (w : EVec (Str α)) (f : Nat), Holds z w ls → w.size < w.cap → insert (strCls z k) can (f + 1) w i s = .ub := by
    intro w f hw hr
    have hsz := hw.size.1
    obtain ⟨ps, h1, rfl, h3⟩ := hw
    have hi' : i < ps.length := by simpa using hi
    obtain ⟨S, a, _⟩ := open1_str (z := z) h1 i k (by simp; omega) hr
    rw [insert, if_neg (by omega), if_pos hr, if_neg (by omega), a]
    simp only [Res.ok_bind, assignAll]
    rw [obj_mid _ _ _ _ (by simp; omega)]
    simp only [Res.ok_bind]
    have : (strCls z k).assign Str.empty s = .ub := C18_default_target_ub s t hs k
    rw [this]; rfl
  by_cases hr : v.size < v.cap
  · exact key v (f + 1) hv hr
  · have hsz := hv.size
    obtain ⟨ps, h1, h2, h3⟩ := hv
    rw [insert, if_neg (by omega), if_neg hr]
    exact key _ f (Holds.reserve ⟨ps, h1, h2, h3⟩ (nextCap v)) (hg.next h1 hr)

example := C195_insert_ub (can := fun _ => true) (two_holds 0) ab_rep (Or.inr ⟨by decide, rfl⟩) 1 (by decide) 0 0
example := C195_insert_ub (can := fun _ => false) (two_holds 3) (s := Str.empty) (t := []) (Or.inr ⟨rfl, rfl⟩) (Or.inl (by decide)) 0 (by decide) 0 0

/-- **C195, exactly (inserting a copy).**  `insert(it, const String &)` is defined exactly at the end, where it appends. -/
theorem C195_insert_exact {v : EVec (Str α)} {ls : List (List α)} {s : Str α} {t : List α} (hv : Holds z v ls) (hs : Str.Rep z s t)
    (hg : Grows can v) (i : Nat) (f k : Nat) :
    (∃ v', insert (strCls z k) can (f + 3) v i s = .ok v' ∧ texts v' = .ok (ls.insertIdx i t)) ↔ i = ls.length := by
  constructor
  · rintro ⟨v', a, _⟩
    rcases Nat.lt_trichotomy i ls.length with h | h | h
    · rw [C195_insert_ub hv hs hg i h (f + 1) k] at a; cases a
    · exact h
    · rw [insert, if_pos (by have := hv.size.1; omega)] at a; cases a
  · rintro rfl
    have e : ls.insertIdx ls.length t = ls ++ [t] := by rw [← takeDropInsert _ _ _ (Nat.le_refl _)]; simp
    rw [e]
    by_cases hr : v.size < v.cap
    · obtain ⟨v', a, _, b⟩ := (C195_append hv hs hg (f + 1) k).1
      refine ⟨v', ?_, b⟩
      rw [insert, if_neg (by have := hv.size.1; omega), if_pos hr, if_pos hv.size.1.symm]; exact a
    · have hsz := hv.size
      have hh := hv
      obtain ⟨ps, h1, h2, h3⟩ := hv
      have hn := hg.next h1 hr
      have hw := Holds.reserve (can := can) hh (nextCap v)
      obtain ⟨v', a, _, b⟩ := (C195_append hw hs (can := can) (Or.inl hn) f k).1
      refine ⟨v', ?_, b⟩
      rw [insert, if_neg (by omega), if_neg hr, insert, if_neg (by have := hw.size.1; omega), if_pos hn, if_pos hw.size.1.symm]
      exact a

example := C195_insert_exact (can := fun _ => true) (two_holds 0) ab_rep (Or.inr ⟨by decide, rfl⟩) 2 0 0

/-- **C195, exactly (inserting by move).**  `insert(it, move(s))` in front of an element puts the string there and empties `s` if the vector
has a free cell; into a full vector it is undefined, because the retry after growing passes `s` as an lvalue and so copies. -/
theorem C195_insert_move_exact {v : EVec (Str α)} {ls : List (List α)} {s : Str α} {t : List α} (hv : Holds z v ls) (hs : Str.Rep z s t)
    (hg : Grows can v) (i : Nat) (hi : i < ls.length) (f k : Nat) :
    (v.size < v.cap → ∃ v', insertMove (strCls z k) can (f + 2) v i s = .ok (v', Str.empty) ∧ Holds z v' (ls.insertIdx i t) ∧
      texts v' = .ok (ls.insertIdx i t)) ∧
    (v.size = v.cap → insertMove (strCls z k) can (f + 2) v i s = .ub) := by
  have hsz := hv.size
  refine ⟨fun hr => ?_, fun hr => ?_⟩
  · obtain ⟨ps, h1, rfl, h3⟩ := hv
    have hi' : i < ps.length := by simpa using hi
    obtain ⟨S, a, b⟩ := open1_str (z := z) h1 i k (by simp; omega) hr
    have hh : Has ⟨((ps.map (·.1)).insertIdx i s).map some ++ S, v.cap, v.size + 1⟩ ((ps.map (·.1)).insertIdx i s) :=
      has_of (S := S) rfl (by rw [List.length_insertIdx_of_le_length (by simp; omega)]; simp at b ⊢; omega)
        (by rw [List.length_insertIdx_of_le_length (by simp; omega)]; simp at hsz ⊢; omega)
    refine ⟨_, ?_, Holds.ofInsert i (by omega) s t hs h3 hh, (Holds.ofInsert i (by omega) s t hs h3 hh).texts⟩
    rw [insertMove, if_neg (by omega), if_pos hr, if_neg (by omega), a]
    simp only [Res.ok_bind]
    rw [obj_mid _ _ _ _ (by simp; omega)]
    simp only [Res.ok_bind, (strSteals z k).massign Str.empty s ⟨[], Or.inr ⟨rfl, rfl⟩⟩]
    rw [put_mid _ _ _ _ _ (by simp; omega)]
    rw [← takeDropInsert _ _ _ (by simp; omega)]
    simp [strCls]
  · rw [insertMove, if_neg (by omega), if_neg (by omega)]
    obtain ⟨ps, h1, h2, h3⟩ := hv
    have hn := hg.next h1 (by omega)
    rw [C195_insert_ub (Holds.reserve ⟨ps, h1, h2, h3⟩ (nextCap v)) hs (can := can) (Or.inl hn) i hi f k]
    rfl

example := C195_insert_move_exact (can := fun _ => true) (two_holds 0) ab_rep (Or.inr ⟨by decide, rfl⟩) 1 (by decide) 0 0
example := C195_insert_move_exact (can := fun _ => false) (two_holds 3) ab_rep (Or.inl (by decide)) 1 (by decide) 0 0

/-- **C195, `emplace`.**  `emplace(it, s)` puts a copy of `s` in front of any element or at the end. -/
theorem C195_emplace {v : EVec (Str α)} {ls : List (List α)} {s : Str α} {t : List α} (hv : Holds z v ls) (hs : Str.Rep z s t)
    (hg : Grows can v) (i : Nat) (hi : i ≤ ls.length) (f k : Nat) :
    ∃ v', emplace (strCls z k) can (f + 3) v i s = .ok v' ∧ Holds z v' (ls.insertIdx i t) ∧ texts v' = .ok (ls.insertIdx i t) := by
  have key : ∀ (w : EVec (Str α)) (f : Nat), Holds z w ls → w.size < w.cap →
      ∃ v', emplace (strCls z k) can (f + 2) w i s = .ok v' ∧ Holds z v' (ls.insertIdx i t) ∧ texts v' = .ok (ls.insertIdx i t) := by
    intro w f hw hr
    have hsz := hw.size.1
    by_cases he : i = ls.length
    · have e : ls.insertIdx i t = ls ++ [t] := by rw [he, ← takeDropInsert _ _ _ (Nat.le_refl _)]; simp
      rw [e]
      obtain ⟨v', a, b, d⟩ := (C195_append hw hs (can := can) (Or.inl hr) f k).1
      refine ⟨v', ?_, b, d⟩
      rw [emplace, if_neg (by omega), if_pos hr, if_pos (by omega)]; exact a
    · obtain ⟨ps, h1, rfl, h3⟩ := hw
      have hi' : i < ps.length := by simp at hi he; omega
      obtain ⟨s', hc, hfull, _⟩ := Str.copy_ok hs
      obtain ⟨S, a, b⟩ := open1_str (z := z) h1 i k (by simp; omega) hr
      have hh : Has ⟨((ps.map (·.1)).insertIdx i s').map some ++ S, w.cap, w.size + 1⟩ ((ps.map (·.1)).insertIdx i s') :=
        has_of (S := S) rfl (by rw [List.length_insertIdx_of_le_length (by simp; omega)]; simp at b ⊢; omega)
          (by rw [List.length_insertIdx_of_le_length (by simp; omega)]; simp at hsz ⊢; omega)
      refine ⟨_, ?_, Holds.ofInsert i (by omega) s' t (Or.inl hfull) h3 hh, (Holds.ofInsert i (by omega) s' t (Or.inl hfull) h3 hh).texts⟩
      have hcc : (strCls z k).copy s = .ok s' := hc
      rw [emplace, if_neg (by omega), if_pos hr, if_neg (by omega), a]
      simp only [Res.ok_bind, hcc]
      rw [put_mid _ _ _ _ _ (by simp; omega)]
      rw [← takeDropInsert _ _ _ (by simp; omega)]
      simp
  by_cases hr : v.size < v.cap
  · exact key v (f + 1) hv hr
  · have hsz := hv.size
    have hh := hv
    obtain ⟨ps, h1, h2, h3⟩ := hv
    obtain ⟨v', a, b⟩ := key _ f (Holds.reserve (can := can) hh (nextCap v)) (hg.next h1 hr)
    refine ⟨v', ?_, b⟩
    rw [emplace, if_neg (by omega), if_neg hr]; exact a

example := C195_emplace (can := fun _ => true) (two_holds 0) ab_rep (Or.inr ⟨by decide, rfl⟩) 1 (by decide) 0 0

theorem eraseIdx_split {β : Type} (l : List β) (i : Nat) : l.eraseIdx i = l.take i ++ l.drop (i + 1) :=
  List.eraseIdx_eq_take_drop_succ ..

theorem popBack_holds {v : EVec (Str α)} {ls : List (List α)} (hv : Holds z v ls) :
    ∃ v', popBack v = .ok v' ∧ Holds z v' ls.dropLast := by
  obtain ⟨ps, h1, rfl, h3⟩ := hv
  rcases List.eq_nil_or_concat ps with rfl | ⟨qs, q, rfl⟩
  · refine ⟨v, ?_, [], h1, rfl, by simp⟩
    rw [popBack, if_neg (by have := h1.choose_spec.2.2; simpa using this)]
  · rw [List.concat_eq_append] at *
    obtain ⟨rest, a, b, d⟩ := h1
    have e := destroy_ok [q.1] ((qs.map (·.1)).map some) rest
    have hs : v.size = qs.length + 1 := by simpa using d
    refine ⟨⟨(qs.map (·.1)).map some ++ none :: rest, v.cap, v.size - 1⟩, ?_, qs, has_of (S := none :: rest) rfl ?_ (by simp [hs]), by simp,
      fun p hp => h3 p (by simp [hp])⟩
    · rw [popBack, if_pos (by omega)]
      have ea : v.mem = (qs.map (·.1)).map some ++ ([q.1].map some ++ rest) := by rw [a]; simp
      have eb : v.size - 1 = ((qs.map (·.1)).map some).length := by simp [hs]
      rw [ea, eb]
      simp only [List.length_cons, List.length_nil] at e
      rw [e]; rfl
    · rw [← b, a]; simp

/-- **C195, erasing one.**  `erase(it)` removes exactly the text at the position and `popBack` the last one.  The object `erase` leaves
undestroyed behind the last element is an empty string, so no storage is lost with it. -/
theorem C195_erase {v : EVec (Str α)} {ls : List (List α)} (hv : Holds z v ls) (i : Nat) (hi : i < ls.length) (k : Nat) :
    (∃ v', erase (strCls z k) v i = .ok v' ∧ Holds z v' (ls.eraseIdx i) ∧ texts v' = .ok (ls.eraseIdx i) ∧
      (i + 1 < ls.length → v'.mem[v'.size]? = some (some Str.empty))) ∧
    (∃ v', popBack v = .ok v' ∧ Holds z v' ls.dropLast ∧ texts v' = .ok ls.dropLast) := by
  have hsz := hv.size.1
  obtain ⟨w, p1, p2⟩ := popBack_holds hv
  refine ⟨?_, w, p1, p2, p2.texts⟩
  by_cases hl : i + 1 = ls.length
  · have e : ls.eraseIdx i = ls.dropLast := by
      rw [eraseIdx_split _ _, hl, List.drop_length, List.append_nil, List.dropLast_eq_take]
      congr 1; omega
    rw [e]
    refine ⟨w, ?_, p2, p2.texts, fun h => by omega⟩
    rw [erase, if_neg (by omega), if_neg (by omega), if_pos (by omega)]; exact p1
  · obtain ⟨ps, h1, rfl, h3⟩ := hv
    obtain ⟨rest, a, b, d⟩ := h1
    have hi' : i < ps.length := by simpa using hi
    have hl' : i + 1 < ps.length := by simp at hl; omega
    have ed : ps = ps.take i ++ ps[i] :: ps.drop (i + 1) := by simp
    have e := shiftDown_ok (strSteals z k) ((ps.drop (i + 1)).map (·.1)) (((ps.take i).map (·.1)).map some) rest ps[i].1
      ⟨_, h3 _ (by simp)⟩ (by
        intro y hy
        obtain ⟨p, hp, rfl⟩ := List.mem_map.1 hy
        exact ⟨p.2, h3 p (List.mem_of_mem_drop hp)⟩)
    have hne : (ps.drop (i + 1)).map (·.1) ≠ [] := by
      intro h
      have := congrArg List.length h
      simp at this; omega
    rw [if_neg hne] at e
    have hpl : (((ps.take i).map (·.1)).map (some : Str α → Option (Str α))).length = i := by simp; omega
    rw [hpl] at e
    have hm : v.mem = ((ps.take i).map (·.1)).map some ++ some ps[i].1 :: (((ps.drop (i + 1)).map (·.1)).map some ++ rest) := by
      have := congrArg (fun l : List (Str α × List α) => (l.map (·.1)).map some ++ rest) ed
      rw [a]
      simpa only [List.map_append, List.map_cons, List.append_assoc, List.cons_append] using this
    have hlen : v.cap = ps.length + rest.length := by rw [← b, a]; simp
    have hsz' : v.size = ps.length := by rw [d]; simp
    have hH : Holds z ⟨((ps.take i).map (·.1)).map some ++ (((ps.drop (i + 1)).map (·.1)).map some ++ some Str.empty :: rest), v.cap, v.size - 1⟩
        ((ps.map (·.2)).eraseIdx i) := by
      refine ⟨ps.take i ++ ps.drop (i + 1), has_of (S := some Str.empty :: rest) (by simp) ?_ ?_, ?_, ?_⟩
      · simp; omega
      · simp; omega
      · rw [eraseIdx_split _ _]; simp
      · intro p hp
        rcases List.mem_append.1 hp with hp | hp
        · exact h3 p (List.mem_of_mem_take hp)
        · exact h3 p (List.mem_of_mem_drop hp)
    refine ⟨_, ?_, hH, hH.texts, ?_⟩
    · rw [erase, if_neg (by omega), if_neg (by omega), if_neg (by omega), hm]
      have : v.size - (i + 1) = ((ps.drop (i + 1)).map (·.1)).length := by simp [hsz']
      rw [this, e]; rfl
    · intro _
      show (((ps.take i).map (·.1)).map some ++ (((ps.drop (i + 1)).map (·.1)).map some ++ some Str.empty :: rest))[v.size - 1]? = _
      rw [← List.append_assoc, List.getElem?_append_right (by simp; omega)]
      have : v.size - 1 - (((ps.take i).map (·.1)).map some ++ ((ps.drop (i + 1)).map (·.1)).map (some : Str α → Option (Str α))).length = 0 := by
        simp; omega
      rw [this]; rfl

example := C195_erase (two_holds 3) 0 (by decide) 0

theorem obj_none (A B : Slots (Str α)) : obj (A ++ none :: B) A.length = .ub := by simp [obj]

/-- **C195, exactly (erasing a range).**  `erase(b, e)` of at least one element is right if nothing follows the range, and otherwise
undefined: the strings in the range are destroyed and then move-assigned to, which frees their storage again. -/
theorem C195_eraseRange_exact {v : EVec (Str α)} {ls : List (List α)} (hv : Holds z v ls) (b e : Nat) (hb : b < e) (he : e ≤ ls.length)
    (k : Nat) :
    (e = ls.length → ∃ v', eraseRange (strCls z k) v b e = .ok v' ∧ Holds z v' (ls.take b) ∧ texts v' = .ok (ls.take b)) ∧
    (e < ls.length → eraseRange (strCls z k) v b e = .ub) := by
  have hsz := hv.size.1
  obtain ⟨ps, h1, rfl, h3⟩ := hv
  obtain ⟨rest, m, l, d⟩ := h1
  simp only [List.length_map] at hsz he d
  have hpl : (((ps.take b).map (·.1)).map (some : Str α → Option (Str α))).length = b := by simp; omega
  have hml : (((ps.drop b).take (e - b)).map (·.1)).length = e - b := by simp; omega
  have hm : v.mem = ((ps.take b).map (·.1)).map some ++ ((((ps.drop b).take (e - b)).map (·.1)).map some ++
      (((ps.drop e).map (·.1)).map some ++ rest)) := by
    rw [m]
    have : ps = ps.take b ++ ((ps.drop b).take (e - b) ++ ps.drop e) := by
      have : ps.drop e = (ps.drop b).drop (e - b) := by rw [List.drop_drop]; congr 1; omega
      rw [this, List.take_append_drop, List.take_append_drop]
    conv => lhs; rw [this]
    simp
  have hd := destroy_ok (((ps.drop b).take (e - b)).map (·.1)) (((ps.take b).map (·.1)).map some) (((ps.drop e).map (·.1)).map some ++ rest)
  rw [hpl, hml, ← hm] at hd
  have hcl : v.cap = ps.length + rest.length := by rw [← l, m]; simp
  refine ⟨fun hee => ?_, fun hlt => ?_⟩
  · simp only [List.length_map] at hee
    subst hee
    have hH : Holds z ⟨((ps.take b).map (·.1)).map some ++ (List.replicate (ps.length - b) none ++ rest), v.cap, b⟩ ((ps.map (·.2)).take b) := by
      refine ⟨ps.take b, has_of (S := List.replicate (ps.length - b) none ++ rest) rfl ?_ ?_, by simp, fun p hp => h3 p (List.mem_of_mem_take hp)⟩
      · simp; omega
      · simp; omega
    refine ⟨_, ?_, hH, hH.texts⟩
    simp only [List.drop_length, List.map_nil, List.nil_append] at hd
    rw [eraseRange, if_neg (by omega), if_neg (by omega)]
    by_cases hall : ps.length - b = v.size
    · rw [if_pos hall, clean]
      have h0 : b = 0 := by omega
      subst h0
      have : v.size = ps.length - 0 := by omega
      rw [this, hd]; rfl
    · rw [if_neg hall, if_pos (by omega), hd, Res.ok_bind, hsz, Nat.sub_self]
      simp only [shiftDown, Res.ok_bind]
      have : ps.length - (ps.length - b) = b := by omega
      rw [this]
  · simp only [List.length_map] at hlt
    rw [eraseRange, if_neg (by omega), if_neg (by omega), if_neg (by omega), if_pos (by omega), hd, Res.ok_bind]
    obtain ⟨n, hn⟩ : ∃ n, v.size - e = n + 1 := ⟨v.size - e - 1, by omega⟩
    obtain ⟨g, hg⟩ : ∃ g, e - b = g + 1 := ⟨e - b - 1, by omega⟩
    rw [hn, shiftDown, hg, List.replicate_succ]
    unfold slide
    have := obj_none (((ps.take b).map (·.1)).map some) (List.replicate g none ++ (((ps.drop e).map (·.1)).map some ++ rest))
    rw [hpl] at this
    rw [List.cons_append, this]; rfl

example := C195_eraseRange_exact (two_holds 3) 0 1 (by decide) (by decide) 0
example := C195_eraseRange_exact (two_holds 3) 1 2 (by decide) (by decide) 0

/-- **C195, violated (ranges).**  Inserting a non-empty range of strings in front of an element is undefined, for the same reason as
inserting one. -/
theorem C195_insertRange_ub {v : EVec (Str α)} {ls : List (List α)} {s : Str α} {t : List α} (hv : Holds z v ls) (hs : Str.Rep z s t)
    (ss : List (Str α)) (i : Nat) (hi : i < ls.length) (f k : Nat)
    (hg : (s :: ss).length + v.size ≤ v.cap ∨ can (v.cap + (s :: ss).length) = true) :
    insertRange (strCls z k) can (f + 2) v i (s :: ss) = .ub := by
  have key : ∀ (w : EVec (Str α)) (f : Nat), Holds z w ls → (s :: ss).length + w.size ≤ w.cap →
      insertRange (strCls z k) can (f + 1) w i (s :: ss) = .ub := by
    intro w f hw hr
    have hsz := hw.size.1
    obtain ⟨ps, h1, rfl, h3⟩ := hw
    have hi' : i < ps.length := by simpa using hi
    simp only [List.length_map] at hsz
    simp only [List.length_cons] at hr
    obtain ⟨S, a, _⟩ := open_ok (strSteals z k) h1 i ss.length (by simp; omega) (by simp; omega)
    rw [insertRange, if_neg (by omega), if_neg (by simp), if_pos (by simpa using hr), if_neg (by omega)]
    simp only [List.length_cons]
    have e : ∀ (F : Slots (Str α) → Res (EVec (Str α))), (do
        let b ← fill (strCls z k) (ss.length + 1) w.size w.mem
        let b ← shiftUp (strCls z k) i (ss.length + 1) (w.size - i) b
        F b) = (do let b ← (do let b ← fill (strCls z k) (ss.length + 1) w.size w.mem
                               shiftUp (strCls z k) i (ss.length + 1) (w.size - i) b)
                   F b) := by
      intro F
      cases fill (strCls z k) (ss.length + 1) w.size w.mem <;> rfl
    rw [e, a, Res.ok_bind, assignAll, List.replicate_succ, List.cons_append, obj_mid _ _ _ _ (by simp; omega)]
    simp only [Res.ok_bind]
    have : (strCls z k).assign (strCls z k).dflt s = .ub := C18_default_target_ub s t hs k
    rw [this]; rfl
  by_cases hr : (s :: ss).length + v.size ≤ v.cap
  · exact key v (f + 1) hv hr
  · have hsz := hv.size
    have hc := hg.resolve_left hr
    rw [insertRange, if_neg (by omega), if_neg (by simp), if_neg hr]
    refine key _ f (Holds.reserve hv _) ?_
    unfold ElemVec.reserve
    rw [if_pos (by simp), if_pos hc]
    show _ + v.size ≤ v.cap + _
    omega

example := C195_insertRange_ub (can := fun _ => true) (two_holds 0) ab_rep [ab] 1 (by decide) 0 0 (Or.inr rfl)

/-- **C195, ranges at the end.**  Inserting a range of strings at the end appends copies of them all, growing first if necessary. -/
theorem C195_insertRange_end {v : EVec (Str α)} {ls : List (List α)} (hv : Holds z v ls) (qs : List (Str α × List α))
    (hq : ∀ q ∈ qs, Str.Rep z q.1 q.2) (f k : Nat) (hg : qs.length + v.size ≤ v.cap ∨ can (v.cap + qs.length) = true) :
    ∃ v', insertRange (strCls z k) can (f + 2) v ls.length (qs.map (·.1)) = .ok v' ∧ Holds z v' (ls ++ qs.map (·.2)) ∧
      texts v' = .ok (ls ++ qs.map (·.2)) := by
  have all : ∀ (qs : List (Str α × List α)) (w : EVec (Str α)) (ls : List (List α)) (f : Nat), Holds z w ls → (∀ q ∈ qs, Str.Rep z q.1 q.2) →
      qs.length + w.size ≤ w.cap → ∃ v', pushAll (strCls z k) can (f + 1) w (qs.map (·.1)) = .ok v' ∧ Holds z v' (ls ++ qs.map (·.2)) := by
    intro qs
    induction qs with
    | nil => intro w ls f hw _ _; exact ⟨w, rfl, by simpa using hw⟩
    | cons q qs ih =>
      intro w ls f hw hq hr
      simp only [List.length_cons] at hr
      have hsz := hw.size.1
      obtain ⟨ps, h1, rfl, h3⟩ := hw
      have hq0 : Str.Rep z q.1 q.2 := hq q (by simp)
      obtain ⟨s', hc, hfull, _⟩ := Str.copy_ok hq0
      obtain ⟨w1, a, b, d⟩ := pushBack_ok (c := strCls z k) (can := can) h1 (x := q.1) (y := s') hc (by omega) f
      have hw1 : Holds z w1 (ps.map (·.2) ++ [q.2]) := by
        refine ⟨ps ++ [(s', q.2)], by simpa using b, by simp, ?_⟩
        intro p hp
        rcases List.mem_append.1 hp with hp | hp
        · exact h3 p hp
        · simp only [List.mem_singleton] at hp; subst hp; exact Or.inl hfull
      have hs1 := hw1.size.1
      simp only [List.length_append, List.length_map, List.length_cons, List.length_nil] at hs1 hsz
      obtain ⟨v', e, g⟩ := ih w1 _ f hw1 (fun p hp => hq p (by simp [hp])) (by omega)
      refine ⟨v', ?_, by simpa using g⟩
      simp only [List.map_cons, pushAll]
      rw [a]; exact e
  have key : ∀ (w : EVec (Str α)) (f : Nat), Holds z w ls → qs.length + w.size ≤ w.cap →
      ∃ v', insertRange (strCls z k) can (f + 1) w ls.length (qs.map (·.1)) = .ok v' ∧ Holds z v' (ls ++ qs.map (·.2)) ∧
        texts v' = .ok (ls ++ qs.map (·.2)) := by
    intro w f hw hr
    obtain ⟨v', a, b⟩ := all qs w ls f hw hq hr
    have hsz := hw.size.1
    rw [insertRange, if_neg (by omega)]
    by_cases h0 : qs = []
    · subst h0
      exact ⟨w, by simp, by simpa using hw, by simpa using hw.texts⟩
    · have : (qs.map (·.1)).length ≠ 0 := by simpa using h0
      rw [if_neg this, if_pos (by simpa using hr), if_pos hsz.symm]
      exact ⟨v', a, b, b.texts⟩
  by_cases hr : qs.length + v.size ≤ v.cap
  · exact key v (f + 1) hv hr
  · have hc := hg.resolve_left hr
    have hsz := hv.size
    have h0 : (qs.map (·.1)).length ≠ 0 := by
      intro h; simp at h; subst h; simp at hr; omega
    obtain ⟨v', a, b⟩ := key (reserve can v (v.cap + qs.length)) f (Holds.reserve hv _) (by
      unfold ElemVec.reserve
      rw [if_pos (by simp at h0; have := List.length_pos_iff.2 h0; omega), if_pos hc]
      show _ + v.size ≤ v.cap + _
      omega)
    refine ⟨v', ?_, b⟩
    rw [insertRange, if_neg (by omega), if_neg h0, if_neg (by simpa using hr)]
    simpa using a

example := C195_insertRange_end (can := fun _ => true) (two_holds 0) [(ab, [5, 6]), (ab, [5, 6])]
  (by intro q hq; simp at hq; subst hq; exact ab_rep) 0 0 (Or.inr rfl)

/-! ### Histories -/

/-- Calls that are defined; a string argument comes with its text. -/
inductive Op (α : Type) where
  | push (s : Str α) (t : List α)
  | pushMove (s : Str α) (t : List α)
  | emplace (i : Nat) (s : Str α) (t : List α)
  | erase (i : Nat)
  | pop
  | clean

def step (z : α) (can : Nat → Bool) (k : Nat) (v : EVec (Str α)) : Op α → Res (EVec (Str α))
  | .push s _ => pushBack (strCls z k) can (k + 3) v s
  | .pushMove s _ => do
    let r ← pushBackMove (strCls z k) can (k + 3) v s
    .ok r.1
  | .emplace i s _ => ElemVec.emplace (strCls z k) can (k + 3) v i s
  | .erase i => ElemVec.erase (strCls z k) v i
  | .pop => popBack v
  | .clean => ElemVec.clean v

def run (z : α) (can : Nat → Bool) (k : Nat) : EVec (Str α) → List (Op α) → Res (EVec (Str α))
  | v, [] => .ok v
  | v, o :: os => do
    let v ← step z can k v o
    run z can k v os

/-- What the calls should do to the list of texts. -/
def want (ls : List (List α)) : Op α → List (List α)
  | .push _ t => ls ++ [t]
  | .pushMove _ t => ls ++ [t]
  | .emplace i _ t => ls.insertIdx i t
  | .erase i => ls.eraseIdx i
  | .pop => ls.dropLast
  | .clean => []

def wants (ls : List (List α)) : List (Op α) → List (List α)
  | [] => ls
  | o :: os => wants (want ls o) os

/-- Strings are proper and positions lie in the vector. -/
def allowed (z : α) (ls : List (List α)) : Op α → Prop
  | .push s t => Str.Rep z s t
  | .pushMove s t => Str.Rep z s t
  | .emplace i s t => Str.Rep z s t ∧ i ≤ ls.length
  | .erase i => i < ls.length
  | .pop => True
  | .clean => True

def allAllowed (z : α) (ls : List (List α)) : List (Op α) → Prop
  | [] => True
  | o :: os => allowed z ls o ∧ allAllowed z (want ls o) os

theorem reserve_cap {E : Type} (v : EVec E) (h : v.cap ≠ 1) : (reserve can v (nextCap v)).cap ≠ 1 := by
  have hn : nextCap v ≠ 1 := by unfold nextCap; split <;> omega
  unfold reserve
  split
  · split
    · exact hn
    · exact h
  · exact h

theorem pushBack_cap {E : Type} {c : Cls E} {x : E} : ∀ (f : Nat) (v v' : EVec E), pushBack c can f v x = .ok v' → v.cap ≠ 1 → v'.cap ≠ 1 := by
  intro f
  induction f with
  | zero => intro v v' h; simp [pushBack] at h
  | succ f ih =>
    intro v v' h hv
    rw [pushBack] at h
    split at h
    · obtain ⟨y, _, h⟩ := Res.bind_eq_ok.1 h
      obtain ⟨b, _, h⟩ := Res.bind_eq_ok.1 h
      cases h; exact hv
    · exact ih _ _ h (reserve_cap v hv)

theorem pushBackMove_cap {E : Type} {c : Cls E} {x : E} : ∀ (f : Nat) (v : EVec E) (r : EVec E × E), pushBackMove c can f v x = .ok r →
    v.cap ≠ 1 → r.1.cap ≠ 1 := by
  intro f
  induction f with
  | zero => intro v r h; simp [pushBackMove] at h
  | succ f ih =>
    intro v r h hv
    rw [pushBackMove] at h
    split at h
    · obtain ⟨b, _, h⟩ := Res.bind_eq_ok.1 h
      cases h; exact hv
    · exact ih _ _ h (reserve_cap v hv)

theorem emplace_cap {E : Type} {c : Cls E} {x : E} {i : Nat} : ∀ (f : Nat) (v v' : EVec E), ElemVec.emplace c can f v i x = .ok v' →
    v.cap ≠ 1 → v'.cap ≠ 1 := by
  intro f
  induction f with
  | zero => intro v v' h; simp [ElemVec.emplace] at h
  | succ f ih =>
    intro v v' h hv
    rw [ElemVec.emplace] at h
    split at h
    · cases h
    · split at h
      · split at h
        · exact pushBack_cap _ _ _ h hv
        · obtain ⟨_, _, h⟩ := Res.bind_eq_ok.1 h
          obtain ⟨_, _, h⟩ := Res.bind_eq_ok.1 h
          obtain ⟨_, _, h⟩ := Res.bind_eq_ok.1 h
          cases h; exact hv
      · exact ih _ _ h (reserve_cap v hv)

theorem popBack_cap {E : Type} {v v' : EVec E} (h : popBack v = .ok v') : v'.cap = v.cap := by
  unfold popBack at h
  split at h
  · obtain ⟨_, _, h⟩ := Res.bind_eq_ok.1 h
    cases h; rfl
  · cases h; rfl

theorem erase_cap {E : Type} {c : Cls E} {v v' : EVec E} {i : Nat} (h : ElemVec.erase c v i = .ok v') : v'.cap = v.cap := by
  unfold ElemVec.erase at h
  split at h
  · cases h
  · split at h
    · cases h; rfl
    · split at h
      · exact popBack_cap h
      · obtain ⟨_, _, h⟩ := Res.bind_eq_ok.1 h
        cases h; rfl

omit [DecidableEq α] in
theorem clean_holds {v : EVec (Str α)} {ls : List (List α)} (hv : Holds z v ls) : ∃ v', ElemVec.clean v = .ok v' ∧ Holds z v' [] ∧ v'.cap = v.cap := by
  obtain ⟨ps, ⟨rest, a, b, d⟩, rfl, h3⟩ := hv
  have e := destroy_ok (ps.map (·.1)) [] rest
  simp only [List.nil_append, List.length_nil] at e
  refine ⟨⟨List.replicate (ps.map (·.1)).length none ++ rest, v.cap, 0⟩, ?_, ⟨[], has_of (S := List.replicate (ps.map (·.1)).length none ++ rest) rfl ?_ rfl, rfl, by simp⟩, rfl⟩
  · rw [ElemVec.clean, a, d, e]; rfl
  · rw [← b, a]; simp

theorem step_ok {v : EVec (Str α)} {ls : List (List α)} (hv : Holds z v ls) (hc : v.cap ≠ 1) (hcan : ∀ n, can n = true) (k : Nat) (o : Op α)
    (ho : allowed z ls o) : ∃ v', step z can k v o = .ok v' ∧ Holds z v' (want ls o) ∧ v'.cap ≠ 1 := by
  have hg : Grows can v := Or.inr ⟨hc, hcan _⟩
  cases o with
  | push s t =>
    obtain ⟨v', a, b, _⟩ := (C195_append hv ho hg (k + 1) k).1
    exact ⟨v', a, b, pushBack_cap _ _ _ a hc⟩
  | pushMove s t =>
    obtain ⟨v', a, b, _⟩ := (C195_append hv ho hg (k + 1) k).2
    refine ⟨v', ?_, b, pushBackMove_cap _ _ _ a hc⟩
    show (do let r ← pushBackMove (strCls z k) can (k + 3) v s; Res.ok r.1) = _
    rw [a]; rfl
  | emplace i s t =>
    obtain ⟨v', a, b, _⟩ := C195_emplace hv ho.1 hg i ho.2 k k
    exact ⟨v', a, b, emplace_cap _ _ _ a hc⟩
  | erase i =>
    obtain ⟨v', a, b, _⟩ := (C195_erase hv i ho k).1
    exact ⟨v', a, b, by rw [erase_cap a]; exact hc⟩
  | pop =>
    obtain ⟨v', a, b⟩ := popBack_holds hv
    exact ⟨v', a, b, by rw [popBack_cap a]; exact hc⟩
  | clean =>
    obtain ⟨v', a, b, d⟩ := clean_holds hv
    exact ⟨v', a, b, by rw [d]; exact hc⟩

/-- **C195_partial.**  Every sequence of appending (by copy or move), `emplace`, `erase(it)`, `popBack` and `clean` on a default constructed
vector of strings is defined and leaves the texts a list would have, as long as memory can be had.  Missing: `insert` in front of an
element and erasing an inner range, which are undefined. -/
theorem C195_history_partial (os : List (Op α)) (hcan : ∀ n, can n = true) (k : Nat) (ho : allAllowed z [] os) :
    ∃ v, run z can k EVec.empty os = .ok v ∧ texts v = .ok (wants [] os) := by
  have gen : ∀ (os : List (Op α)) (v : EVec (Str α)) (ls : List (List α)), Holds z v ls → v.cap ≠ 1 → allAllowed z ls os →
      ∃ v', run z can k v os = .ok v' ∧ texts v' = .ok (wants ls os) := by
    intro os
    induction os with
    | nil => intro v ls hv _ _; exact ⟨v, rfl, hv.texts⟩
    | cons o os ih =>
      rintro v ls hv hc ⟨h1, h2⟩
      obtain ⟨v1, a, b, d⟩ := step_ok hv hc hcan k o h1
      obtain ⟨v', e, f⟩ := ih v1 _ b d h2
      refine ⟨v', ?_, f⟩
      rw [run, a]; exact e
  exact gen os _ _ Holds.empty (by simp [EVec.empty]) ho

example := C195_history_partial (z := 0) (can := fun _ => true)
  [.push ab [5, 6], .emplace 0 ab [5, 6], .pushMove Str.empty [], .erase 1, .pop] (fun _ => rfl) 0
  ⟨ab_rep, ⟨ab_rep, by decide⟩, Or.inr ⟨rfl, rfl⟩, (by decide : 1 < 3), trivial, trivial⟩

end Flame.ElemVec
