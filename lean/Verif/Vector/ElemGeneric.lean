import Verif.Vector.ElemProps

/-!
# C195 for every element class

What the vector's own code does to its elements, whatever their class: which of the class's operations decide whether an insertion is right,
and why erasing an inner range is undefined for all classes.
-/

namespace Flame.ElemVec
open Flame

variable {E : Type} {c : Cls E} {Good : E → Prop} {can : Nat → Bool}

/-- **C195, every class: inserting.**  Let moving from an object leave a default-constructed one.  With a free cell and in front of an
element, the outcome of inserting `x` is that of one operation of the class, and nothing else of the class matters: `insert(it, x)` of
copy-*assigning* `x` to a default-constructed object, `emplace(it, x)` of copy-*constructing* from `x`.  If the operation yields `y`, the
elements are the old ones with `y` at the position; if it is undefined, so is the insertion. -/
theorem C195_insert_generic (h : Steals c Good) {v : EVec E} {xs : List E} (hv : Has v xs) (hr : v.size < v.cap) (i : Nat) (hi : i < xs.length)
    (x : E) (f : Nat) :
    (∀ y, c.assign c.dflt x = .ok y → ∃ v', insert c can (f + 1) v i x = .ok v' ∧ elems v'.mem 0 v'.size = .ok (xs.insertIdx i y)) ∧
    (c.assign c.dflt x = .ub → insert c can (f + 1) v i x = .ub) ∧
    (∀ y, c.copy x = .ok y → ∃ v', emplace c can (f + 1) v i x = .ok v' ∧ elems v'.mem 0 v'.size = .ok (xs.insertIdx i y)) ∧
    (c.copy x = .ub → emplace c can (f + 1) v i x = .ub) := by
  have hs : v.size = xs.length := hv.choose_spec.2.2
  obtain ⟨S, a, b⟩ := open_ok h hv i 0 (by omega) (by omega)
  have ho : open1 c v i = .ok ((xs.take i).map some ++ some c.dflt :: ((xs.drop i).map some ++ S)) := by unfold open1; rw [a]; rfl
  have hH : ∀ y, Has ⟨(xs.take i).map some ++ some y :: ((xs.drop i).map some ++ S), v.cap, v.size + 1⟩ (xs.insertIdx i y) := by
    intro y
    refine has_of (S := S) ?_ ?_ ?_
    · rw [← takeDropInsert _ _ _ (by omega)]; simp
    · rw [List.length_insertIdx_of_le_length (by omega)]; omega
    · rw [List.length_insertIdx_of_le_length (by omega)]; omega
  have hl : i = ((xs.take i).map (some : E → Option E)).length := by simp; omega
  refine ⟨?_, ?_, ?_, ?_⟩
  · intro y hy
    refine ⟨_, ?_, (hH y).elems⟩
    rw [insert, if_neg (by omega), if_pos hr, if_neg (by omega), ho]
    simp only [Res.ok_bind, assignAll]
    rw [obj_mid _ _ _ _ hl, Res.ok_bind, hy, Res.ok_bind, put_mid _ _ _ _ _ hl]
    rfl
  · intro hy
    rw [insert, if_neg (by omega), if_pos hr, if_neg (by omega), ho]
    simp only [Res.ok_bind, assignAll]
    rw [obj_mid _ _ _ _ hl, Res.ok_bind, hy]
    rfl
  · intro y hy
    refine ⟨_, ?_, (hH y).elems⟩
    rw [emplace, if_neg (by omega), if_pos hr, if_neg (by omega), ho]
    simp only [Res.ok_bind, hy]
    rw [put_mid _ _ _ _ _ hl]
    rfl
  · intro hy
    rw [emplace, if_neg (by omega), if_pos hr, if_neg (by omega), ho]
    simp only [Res.ok_bind, hy]
    rfl

/-- Numbers, moved from when zero: a class whose operations are all right. -/
def numCls : Cls Nat where
  dflt := 0
  copy := fun x => .ok x
  move := fun x => (x, 0)
  assign := fun _ x => .ok x
  massign := fun _ x => .ok (x, 0)

theorem numSteals : Steals numCls (fun _ => True) := ⟨trivial, fun _ => rfl, fun _ _ _ => rfl⟩

/-- Three numbers and one free cell. -/
def nums : EVec Nat := ⟨[some 7, some 8, some 9, none], 4, 3⟩

theorem nums_has : Has nums [7, 8, 9] := ⟨[none], rfl, rfl, rfl⟩

example := C195_insert_generic (can := fun _ => false) numSteals nums_has (by decide) 1 (by decide) 5 0
example := (C195_insert_generic (can := fun _ => false) (strSteals 0 0) (two_holds 1).choose_spec.1 (by decide) 1
  (by have := (two_holds 1).size.1; have h := (two_holds 1).choose_spec.1.choose_spec.2.2; rw [← h]; decide) ab 0).2.1
  (C18_default_target_ub ab [5, 6] ab_rep 0)

/-- **C195, every class: erasing one.**  `erase(it)` leaves the other elements, and an object of the class moved from and never destroyed
behind the last, unless the last element itself is erased. -/
theorem C195_erase_generic (h : Steals c Good) {v : EVec E} {xs : List E} (hv : Has v xs) (hg : ∀ x ∈ xs, Good x) (i : Nat)
    (hi : i + 1 < xs.length) :
    ∃ v', erase c v i = .ok v' ∧ elems v'.mem 0 v'.size = .ok (xs.eraseIdx i) ∧ v'.mem[v'.size]? = some (some c.dflt) := by
  obtain ⟨rest, a, b, d⟩ := hv
  have ed : xs = xs.take i ++ xs[i] :: xs.drop (i + 1) := by simp
  have e := shiftDown_ok h (xs.drop (i + 1)) ((xs.take i).map some) rest xs[i] (hg _ (by simp))
    (fun y hy => hg y (List.mem_of_mem_drop hy))
  have hne : xs.drop (i + 1) ≠ [] := by
    intro h0
    have := congrArg List.length h0
    simp at this; omega
  rw [if_neg hne] at e
  have hpl : ((xs.take i).map (some : E → Option E)).length = i := by simp; omega
  rw [hpl] at e
  have hm : v.mem = (xs.take i).map some ++ some xs[i] :: ((xs.drop (i + 1)).map some ++ rest) := by
    have := congrArg (fun l : List E => l.map some ++ rest) ed
    rw [a]
    simpa only [List.map_append, List.map_cons, List.append_assoc, List.cons_append] using this
  have hlen : v.cap = xs.length + rest.length := by rw [← b, a]; simp
  have hH : Has ⟨(xs.take i).map some ++ ((xs.drop (i + 1)).map some ++ some c.dflt :: rest), v.cap, v.size - 1⟩ (xs.eraseIdx i) := by
    refine has_of (S := some c.dflt :: rest) ?_ ?_ ?_
    · rw [eraseIdx_split]; simp
    · rw [eraseIdx_split]; simp; omega
    · rw [eraseIdx_split]; simp; omega
  refine ⟨_, ?_, hH.elems, ?_⟩
  · rw [erase, if_neg (by omega), if_neg (by omega), if_neg (by omega), hm]
    have : v.size - (i + 1) = (xs.drop (i + 1)).length := by simp [d]
    rw [this, e]; rfl
  · show ((xs.take i).map some ++ ((xs.drop (i + 1)).map some ++ some c.dflt :: rest))[v.size - 1]? = _
    rw [← List.append_assoc, List.getElem?_append_right (by simp; omega)]
    have : v.size - 1 - ((xs.take i).map some ++ (xs.drop (i + 1)).map (some : E → Option E)).length = 0 := by
      simp; omega
    rw [this]; rfl

example := C195_erase_generic numSteals nums_has (fun _ _ => trivial) 0 (by decide)

/-- **C195, every class: erasing a range (violated).**  If elements follow the range, `erase(b, e)` assigns to objects it has just destroyed:
undefined for every class, even one whose own operations are all right. -/
theorem C195_eraseRange_generic {v : EVec E} {xs : List E} (hv : Has v xs) (b e : Nat) (hb : b < e) (he : e < xs.length) :
    eraseRange c v b e = .ub := by
  obtain ⟨rest, m, l, d⟩ := hv
  have hpl : ((xs.take b).map (some : E → Option E)).length = b := by simp; omega
  have hml : ((xs.drop b).take (e - b)).length = e - b := by simp; omega
  have hm : v.mem = (xs.take b).map some ++ (((xs.drop b).take (e - b)).map some ++ ((xs.drop e).map some ++ rest)) := by
    rw [m]
    have : xs = xs.take b ++ ((xs.drop b).take (e - b) ++ xs.drop e) := by
      have : xs.drop e = (xs.drop b).drop (e - b) := by rw [List.drop_drop]; congr 1; omega
      rw [this, List.take_append_drop, List.take_append_drop]
    conv => lhs; rw [this]
    simp
  have hd := destroy_ok ((xs.drop b).take (e - b)) ((xs.take b).map some) ((xs.drop e).map some ++ rest)
  rw [hpl, hml, ← hm] at hd
  rw [eraseRange, if_neg (by omega), if_neg (by omega), if_neg (by omega), if_pos (by omega), hd, Res.ok_bind]
  obtain ⟨n, hn⟩ : ∃ n, v.size - e = n + 1 := ⟨v.size - e - 1, by omega⟩
  obtain ⟨g, hg⟩ : ∃ g, e - b = g + 1 := ⟨e - b - 1, by omega⟩
  rw [hn, shiftDown, hg, List.replicate_succ]
  unfold slide
  have : obj ((xs.take b).map some ++ none :: (List.replicate g none ++ ((xs.drop e).map some ++ rest))) b = .ub := by
    conv => lhs; arg 2; rw [← hpl]
    simp [obj]
  rw [List.cons_append, this]; rfl

example := C195_eraseRange_generic (c := numCls) nums_has 0 2 (by decide) (by decide)

/-- **C195, every class: erasing nothing.**  An empty range, wherever it lies, and a range whose end lies before its beginning erase nothing. -/
theorem C195_eraseRange_empty {v : EVec E} {xs : List E} (hv : Has v xs) (b e : Nat) (hb : b ≤ xs.length) (he : e ≤ b) :
    eraseRange c v b e = .ok v := by
  have hs : v.size = xs.length := hv.choose_spec.2.2
  unfold eraseRange
  rw [if_neg (by omega)]
  by_cases h : e < b
  · rw [if_pos h]
  · rw [if_neg h]
    have : e = b := by omega
    subst this
    rw [Nat.sub_self]
    by_cases h0 : 0 = v.size
    · rw [if_pos h0]
      unfold clean
      rw [← h0]
      simp only [destroy, Res.ok_bind]
      cases v; simp_all
    · rw [if_neg h0, if_neg (by omega)]

example := C195_eraseRange_empty (c := numCls) nums_has 3 3 (by decide) (by decide)
example := C195_eraseRange_empty (c := numCls) nums_has 2 1 (by decide) (by decide)

theorem assignAll_ok : ∀ (xs ys : List E) (P S : Slots E), xs.map (c.assign c.dflt) = ys.map .ok →
    assignAll c P.length xs (P ++ (List.replicate xs.length (some c.dflt) ++ S)) = .ok (P ++ (ys.map some ++ S)) := by
  intro xs
  induction xs with
  | nil =>
    intro ys P S h
    cases ys with
    | nil => simp [assignAll]
    | cons y ys => simp at h
  | cons x xs ih =>
    intro ys P S h
    cases ys with
    | nil => simp at h
    | cons y ys =>
      simp only [List.map_cons, List.cons.injEq] at h
      simp only [List.length_cons, List.replicate_succ, List.cons_append, List.map_cons, assignAll]
      rw [obj_mid _ _ _ _ rfl, Res.ok_bind, h.1, Res.ok_bind, put_mid _ _ _ _ _ rfl, Res.ok_bind]
      have := ih ys (P ++ [some y]) S h.2
      simpa only [List.length_append, List.length_cons, List.length_nil, List.append_assoc, List.cons_append, List.nil_append] using this

/-- **C195, every class: inserting a range.**  With room, and in front of an element, the range appears element by element at the position, each
as copy assignment to a default-constructed object makes it. -/
theorem C195_insertRange_generic (h : Steals c Good) {v : EVec E} {xs : List E} (hv : Has v xs) (rs ys : List E)
    (hy : rs.map (c.assign c.dflt) = ys.map .ok) (hr : rs.length + v.size ≤ v.cap) (i : Nat) (hi : i < xs.length) (f : Nat) :
    ∃ v', insertRange c can (f + 1) v i rs = .ok v' ∧ elems v'.mem 0 v'.size = .ok (xs.take i ++ ys ++ xs.drop i) := by
  have hs : v.size = xs.length := hv.choose_spec.2.2
  have hl : rs.length = ys.length := by simpa using congrArg List.length hy
  rw [insertRange, if_neg (by omega)]
  cases hg : rs.length with
  | zero =>
    rw [if_pos rfl]
    have : ys = [] := List.eq_nil_of_length_eq_zero (by omega)
    subst this
    exact ⟨v, rfl, by rw [hv.elems]; simp⟩
  | succ g =>
    rw [if_neg (by omega), if_pos (by omega), if_neg (by omega)]
    obtain ⟨S, a, b⟩ := open_ok h hv i g (by omega) (by omega)
    have hH : Has ⟨(xs.take i).map some ++ (ys.map some ++ ((xs.drop i).map some ++ S)), v.cap, v.size + (g + 1)⟩ (xs.take i ++ ys ++ xs.drop i) :=
      has_of (S := S) (by simp) (by simp; omega) (by simp; omega)
    refine ⟨_, ?_, hH.elems⟩
    have hp : i = ((xs.take i).map (some : E → Option E)).length := by simp; omega
    have e := assignAll_ok rs ys ((xs.take i).map some) ((xs.drop i).map some ++ S) hy
    rw [← hp, hg] at e
    cases hfill : fill c (g + 1) v.size v.mem with
    | ok m =>
      rw [hfill, Res.ok_bind] at a
      rw [Res.ok_bind, a, Res.ok_bind, e, Res.ok_bind]
    | ub => rw [hfill] at a; cases a
    | loop => rw [hfill] at a; cases a

example := C195_insertRange_generic (can := fun _ => false) numSteals (v := ⟨[some 7, some 8, none, none, none], 5, 2⟩) (xs := [7, 8])
  ⟨[none, none, none], rfl, rfl, rfl⟩ [4, 5, 6] [4, 5, 6] rfl (by decide) 1 (by decide) 0

/-- **C195, every class: how the vector grows.**  Appending to a vector with a free cell leaves the capacity; a full one gets room for eight
elements if it had none and for half as many again otherwise, if the allocator has that much.  A vector of capacity one does not grow
and appending to it never ends (C02). -/
theorem C195_growth {v : EVec E} {xs : List E} (hv : Has v xs) {x y : E} (hx : c.copy x = .ok y) (f : Nat) :
    (v.size < v.cap → ∃ v', pushBack c can (f + 2) v x = .ok v' ∧ v'.cap = v.cap) ∧
    (v.size = v.cap → v.cap = 0 → can 8 = true → ∃ v', pushBack c can (f + 2) v x = .ok v' ∧ v'.cap = 8) ∧
    (v.size = v.cap → 1 < v.cap → can (v.cap + v.cap / 2) = true → ∃ v', pushBack c can (f + 2) v x = .ok v' ∧ v'.cap = v.cap + v.cap / 2) ∧
    (v.size = v.cap → v.cap = 1 → pushBack c can f v x = .loop) := by
  have grow : ∀ n, v.size = v.cap → nextCap v = n → v.cap < n → can n = true → ∃ v', pushBack c can (f + 2) v x = .ok v' ∧ v'.cap = n := by
    intro n hs hn hlt hc
    have hres : ElemVec.reserve can v (nextCap v) = ⟨v.mem ++ List.replicate (n - v.mem.length) none, n, v.size⟩ := by
      unfold ElemVec.reserve
      rw [hn, if_pos hlt, if_pos hc]
    have hw := hv.reserve (can := can) (nextCap v)
    rw [hres] at hw
    obtain ⟨v', a, _, b⟩ := pushBack_ok (can := can) hw hx (by show v.size < n; omega) f
    refine ⟨v', ?_, b⟩
    rw [pushBack, if_neg (by omega), hres]; exact a
  refine ⟨fun hs => ?_, fun hs h0 hc => ?_, fun hs h1 hc => ?_, fun hs h1 => ?_⟩
  · obtain ⟨v', a, _, b⟩ := pushBack_ok (can := can) hv hx hs (f + 1)
    exact ⟨v', a, b⟩
  · exact grow 8 hs (by simp [nextCap, h0]) (by omega) hc
  · refine grow _ hs ?_ (by omega) hc
    unfold nextCap; rw [if_pos (by omega)]; omega
  · have hn : nextCap v = 1 := by unfold nextCap; rw [h1]; rfl
    have hr : ElemVec.reserve can v (nextCap v) = v := by unfold ElemVec.reserve; rw [hn, h1]; rfl
    induction f with
    | zero => rfl
    | succ f ih =>
      rw [pushBack, if_neg (by omega), hr]
      apply ih
      intro n a b d e
      exfalso; omega

example := C195_growth (c := numCls) (can := fun _ => true) nums_has (x := 5) (y := 5) rfl 0
example := C195_growth (c := numCls) (can := fun _ => true) (v := ⟨[some 3], 1, 1⟩) (xs := [3]) ⟨[], rfl, rfl, rfl⟩ (x := 5) (y := 5) rfl 9

/-- **C195, the end.**  `erase(end())` does nothing.  `insert(end(), move(x))` appends `x` and leaves the argument moved from if there is a free
cell; a full vector appends a *copy* and leaves the argument as it was. -/
theorem C195_end_exact (h : Steals c Good) {v : EVec E} {xs : List E} (hv : Has v xs) {x y : E} (hx : c.copy x = .ok y) (hg : Grows can v) (f : Nat) :
    erase c v v.size = .ok v ∧
    (v.size < v.cap → ∃ v', insertMove c can (f + 2) v v.size x = .ok (v', c.dflt) ∧ elems v'.mem 0 v'.size = .ok (xs ++ [x])) ∧
    (v.size = v.cap → ∃ v', insertMove c can (f + 2) v v.size x = .ok (v', x) ∧ elems v'.mem 0 v'.size = .ok (xs ++ [y])) := by
  refine ⟨by simp [erase], fun hr => ?_, fun hr => ?_⟩
  · obtain ⟨v', a, b, _⟩ := pushBackMove_ok (can := can) h hv x hr (f + 2)
    refine ⟨v', ?_, b.elems⟩
    rw [insertMove, if_neg (by omega), if_pos hr, if_pos rfl]; exact a
  · have hn := hg.next hv (by omega)
    have hw := hv.reserve (can := can) (nextCap v)
    obtain ⟨v', a, b, _⟩ := pushBack_ok (can := can) hw hx hn (f + 1)
    have e : (ElemVec.reserve can v (nextCap v)).size = v.size := by
      unfold ElemVec.reserve
      split
      · split <;> rfl
      · rfl
    refine ⟨v', ?_, b.elems⟩
    rw [insertMove, if_neg (by omega), if_neg (by omega), insert, if_neg (by omega), if_pos hn, if_pos e.symm, a]
    rfl

example := C195_end_exact (can := fun _ => true) numSteals nums_has (x := 5) (y := 5) rfl (Or.inl (by decide)) 0
example := C195_end_exact (can := fun _ => true) numSteals (v := ⟨[some 7, some 8], 2, 2⟩) (xs := [7, 8]) ⟨[], rfl, rfl, rfl⟩ (x := 5) (y := 5) rfl
  (Or.inr ⟨by decide, rfl⟩) 0

theorem carry_ok (h : Steals c Good) : ∀ (ys : List E) (n : Nat) (P Q S T : Slots E), ys.length = n → P.length = Q.length →
    carry c n P.length (P ++ (ys.map some ++ S)) (Q ++ (List.replicate n none ++ T)) =
      .ok (P ++ (List.replicate n none ++ S), Q ++ (ys.map some ++ T)) := by
  intro ys
  induction ys with
  | nil => intro n P Q S T hn _; subst hn; simp [carry]
  | cons y ys ih =>
    intro n P Q S T hn hl
    subst hn
    simp only [List.length_cons, List.map_cons, List.cons_append, List.replicate_succ, carry]
    rw [obj_mid _ _ _ _ rfl, Res.ok_bind, hl, put_mid _ _ _ _ _ rfl, Res.ok_bind, ← hl, put_mid _ _ _ _ _ rfl, Res.ok_bind]
    have hd := destroy_ok [(c.move y).2] P (ys.map some ++ S)
    simp only [List.length_cons, List.length_nil, List.map_cons, List.map_nil, List.cons_append, List.nil_append, List.replicate_succ,
      List.replicate_zero] at hd
    rw [hd, Res.ok_bind]
    have := ih ys.length (P ++ [none]) (Q ++ [some y]) S T rfl (by simp [hl])
    simp only [List.length_append, List.length_cons, List.length_nil, List.append_assoc, List.cons_append, List.nil_append] at this
    rw [h.move y]
    exact this

/-- **C195, every class: growing.**  `reserve` keeps every element, in its place, whether the allocation is extended or the elements move to
a new one; in the second case no object is left in the allocation that is freed. -/
theorem C195_reserve_generic (h : Steals c Good) {v : EVec E} {xs : List E} (hv : Has v xs) (n : Nat) :
    (elems (reserve can v n).mem 0 (reserve can v n).size = .ok xs ∧
      (can n = true → (reserve can v n).mem.length = max v.cap n ∧ (reserve can v n).cap = max v.cap n)) ∧
    ∃ w old, reserveMove c v n = .ok (w, old) ∧ elems w.mem 0 w.size = .ok xs ∧ w.mem.length = max v.cap n ∧ w.cap = max v.cap n ∧
      ∀ i, i < xs.length → v.cap < n → old[i]? = some none := by
  refine ⟨⟨(hv.reserve n).elems, fun hc => ?_⟩, ?_⟩
  · have h1 := (hv.reserve (can := can) n).choose_spec.2.1
    have h2 : (reserve can v n).cap = max v.cap n := by
      unfold reserve
      split
      · show n = _; omega
      · omega
    exact ⟨h1.trans h2, h2⟩
  · obtain ⟨rest, m, l, d⟩ := hv
    by_cases hn : v.cap < n
    · have hxl : xs.length ≤ v.cap := by rw [← l, m]; simp
      have e := carry_ok h xs xs.length [] [] rest (List.replicate (n - xs.length) none) rfl rfl
      have er : List.replicate xs.length (none : Option E) ++ List.replicate (n - xs.length) none = List.replicate n none := by
        rw [List.replicate_append_replicate]; congr 1; omega
      simp only [List.nil_append, List.length_nil, er] at e
      refine ⟨⟨xs.map some ++ List.replicate (n - xs.length) none, n, v.size⟩, List.replicate xs.length none ++ rest, ?_, ?_, ?_, ?_, ?_⟩
      · rw [reserveMove, if_pos hn, m, d, e]; rfl
      · exact (has_of (S := List.replicate (n - xs.length) none) rfl (by simp; omega) d).elems
      · simp; omega
      · show n = _; omega
      · intro i hi _
        rw [List.getElem?_append_left (by simpa using hi), List.getElem?_replicate, if_pos hi]
    · refine ⟨v, [], by rw [reserveMove, if_neg hn], Has.elems ⟨rest, m, l, d⟩, by omega, by omega, fun i _ h => absurd h hn⟩

example := C195_reserve_generic (can := fun _ => true) numSteals nums_has 9
example : reserveMove numCls nums 5 = .ok (⟨[some 7, some 8, some 9, none, none], 5, 3⟩, [none, none, none, none]) := rfl

theorem copyAll_ok {α : Type} [DecidableEq α] {z : α} (k : Nat) : ∀ ps : List (Str α × List α), (∀ p ∈ ps, Str.Rep z p.1 p.2) →
    ∃ qs : List (Str α × List α), copyAll (strCls z k) (ps.map (·.1)) = .ok (qs.map (·.1)) ∧ qs.map (·.2) = ps.map (·.2) ∧
      ∀ q ∈ qs, Str.Rep z q.1 q.2 := by
  intro ps
  induction ps with
  | nil => intro _; exact ⟨[], rfl, rfl, by simp⟩
  | cons p ps ih =>
    intro h
    obtain ⟨qs, h1, h2, h3⟩ := ih (fun q hq => h q (by simp [hq]))
    obtain ⟨s', hc, hfull, _⟩ := Str.copy_ok (h p (by simp))
    have hcc : (strCls z k).copy p.1 = .ok s' := hc
    refine ⟨(s', p.2) :: qs, ?_, by simp [h2], ?_⟩
    · simp only [List.map_cons, copyAll]
      rw [hcc, Res.ok_bind, h1]; rfl
    · intro q hq
      rcases List.mem_cons.1 hq with rfl | hq
      · exact Or.inl hfull
      · exact h3 q hq

/-- **C195, copying.**  Copying a vector of strings yields one with the same texts, full to its capacity. -/
theorem C195_copy {α : Type} [DecidableEq α] {z : α} {v : EVec (Str α)} {ls : List (List α)} (hv : Holds z v ls) (k : Nat) :
    ∃ w, copyCtor (strCls z k) v = .ok w ∧ Holds z w ls ∧ texts w = .ok ls ∧ w.size = ls.length ∧ w.cap = ls.length := by
  have hsz := hv.size.1
  obtain ⟨ps, h1, rfl, h3⟩ := hv
  obtain ⟨qs, a, b, d⟩ := copyAll_ok (z := z) k ps h3
  have hl : qs.length = ps.length := by simpa using congrArg List.length b
  have hH : Holds z ⟨(qs.map (·.1)).map some, v.size, v.size⟩ (ps.map (·.2)) :=
    ⟨qs, has_of (S := []) (by simp) (by simp at hsz ⊢; omega) (by simp at hsz ⊢; omega), b.symm, d⟩
  refine ⟨_, ?_, hH, hH.texts, hsz, hsz⟩
  rw [copyCtor, h1.elems, Res.ok_bind, a]; rfl

example := C195_copy (two_holds 3) 0

end Flame.ElemVec
