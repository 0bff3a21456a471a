import Verif.Vector.Throw

/-!
# C169: an exception thrown by an element

What a user relies on: when an element's copy or assignment throws, the exception reaches the caller, the container can still be used and
destroyed, and every element is either still in it or destroyed.
-/

namespace Flame
namespace Thr
variable {α : Type u}

/-- Spec: `v` has `n` elements and an object (possibly without a specified value) in each of their places. -/
def Usable (v : Vec α) (n : Nat) : Prop := v.size = n ∧ ∀ i, i < n → ∃ c, v.buf[i]? = some c ∧ c.isLive = true

/-- Spec: destroying the vector is defined and leaves `d` objects that are never destroyed. -/
def Abandons (v : Vec α) (d : Nat) : Prop := v.leakedAtDestruction false = .ok d

theorem abandons_of {v : Vec α} {n d : Nat} (hs : v.size = n)
    (h1 : ∀ i, i < n + d → ∃ c, v.buf[i]? = some c ∧ c.isLive = true)
    (h2 : ∀ i, n + d ≤ i → v.buf[i]? = none ∨ v.buf[i]? = some .raw) : Abandons v d := by
  obtain ⟨b', e1, _, e3⟩ := destroyRange_live n (b := v.buf) (i := 0) (fun j _ hj => h1 j (by omega))
  have : v.clean false = .ok { v with buf := b', size := 0 } := by
    unfold Vec.clean; rw [hs, e1]; rfl
  unfold Abandons Vec.leakedAtDestruction
  rw [this]
  simp only [Res.ok.injEq]
  refine countP_window n d (fun j hj => by rw [e3, if_pos (by omega)]) (fun j hj1 hj2 => ?_) (fun j hj => ?_)
  · rw [e3, if_neg (by omega)]; exact h1 j hj2
  · rw [e3, if_neg (by omega)]; exact h2 j hj

theorem rep_live {v : Vec α} {l : List α} (h : Vec.Rep v l) {i : Nat} (hi : i < l.length) : v.buf[i]? = some (.live l[i]) := by
  obtain ⟨_, _, R, h3⟩ := h
  rw [h3, List.getElem?_append_left (by simpa using hi)]
  simp [hi]

theorem noStray_get {v : Vec α} (h : Vec.NoStray v) {i : Nat} (hi : v.size ≤ i) : v.buf[i]? = none ∨ v.buf[i]? = some .raw := by
  cases e : v.buf[i]? with
  | none => exact Or.inl rfl
  | some c =>
    right
    have : c ∈ v.buf.drop v.size := by
      refine List.mem_iff_getElem?.2 ⟨i - v.size, ?_⟩
      rw [List.getElem?_drop, ← e]; congr 1; omega
    rw [h c this]

theorem finish_threw {v : Vec α} {l : List α} {d p : Nat} (h : Vec.Rep v l) (hn : Vec.NoStray v) (hp : p ≤ v.size) {c : Cells α}
    (hw : Within v.buf c p (v.size + d)) :
    Usable ({ v with buf := c } : Vec α) v.size ∧ (∀ i, (hi : i < p) → (hil : i < l.length) → c.get i = .ok l[i]) ∧
      Abandons ({ v with buf := c } : Vec α) d := by
  have hl : ∀ i, i < v.size + d → ∃ c', c[i]? = some c' ∧ c'.isLive = true := by
    intro i hi
    by_cases hip : i < p
    · rw [hw.out i (Or.inl hip)]
      exact ⟨_, rep_live h (i := i) (by have := h.2.1; omega), rfl⟩
    · exact hw.live i (by omega) hi
  refine ⟨⟨rfl, fun i hi => hl i (by omega)⟩, fun i hi hil => ?_, abandons_of (n := v.size) (d := d) rfl hl fun i hi => ?_⟩
  · unfold Cells.get
    rw [hw.out i (Or.inl hi), rep_live h hil]
  · show c[i]? = none ∨ c[i]? = some .raw
    rw [hw.out i (Or.inr hi)]; exact noStray_get hn (by omega)

/-- **Violated for insertion.**  Inserting `xs` before the end of a vector with room: a throwing constructor ends the program; an
exception thrown by any of the moves or assignments reaches the caller, with the vector usable and its elements before the place
untouched, but `xs.length` objects are never destroyed.  Without an exception the insertion is exact. -/
theorem C169_insert_range_violated {can : Nat → Bool} {v : Vec α} {l xs : List α} {f : Nat} (h : Vec.Rep v l) (hn : Vec.NoStray v) {p : Nat}
    (hp : p < v.size) (hx : 0 < xs.length) (hd : xs.length + v.size ≤ v.cap) (k : Nat) :
    (k < xs.length → insertRange can k (f + 1) v p xs = .died) ∧
    (xs.length ≤ k → k < xs.length + (v.size - p) + xs.length → ∃ v', insertRange can k (f + 1) v p xs = .threw v' ∧
      Usable v' v.size ∧ (∀ i, (hi : i < p) → (hil : i < l.length) → v'.buf.get i = .ok l[i]) ∧ Abandons v' xs.length) ∧
    (xs.length + (v.size - p) + xs.length ≤ k → ∃ v', insertRange can k (f + 1) v p xs = .done v' ∧
      Vec.Rep v' (l.take p ++ xs ++ l.drop p) ∧ Vec.NoStray v') := by
  have hc := insertCells_ok h hp hx hd k
  have he : insertRange can k (f + 1) v p xs = finishVec v (v.size + xs.length) (insertCells k v.buf v.size p xs) := by
    rw [insertRange, if_neg (by omega), if_neg (by omega), if_pos hd, if_neg (by omega)]
  have h2 := h.2.1
  refine ⟨fun hk => by rw [he, hc.1 hk]; rfl, fun hk1 hk2 => ?_, fun hk => ?_⟩
  · obtain ⟨c, e, hw⟩ := hc.2.1 hk1 hk2
    have := finish_threw h hn (Nat.le_of_lt hp) hw
    exact ⟨_, by rw [he, e]; rfl, this⟩
  · obtain ⟨R, k', e, hR, hcap⟩ := hc.2.2 hk
    refine ⟨⟨(l.take p ++ xs ++ l.drop p).map .live ++ R, v.cap, v.size + xs.length⟩, by rw [he, e]; rfl, ⟨?_, ?_, R, rfl⟩, ?_⟩
    · simp; omega
    · simp; omega
    · intro c hc'
      have hdr : ((l.take p ++ xs ++ l.drop p).map Cell.live ++ R).drop (v.size + xs.length) = R := by
        rw [List.drop_append_of_le_length (by simp; omega), List.drop_of_length_le (by simp; omega)]; rfl
      simp only at hc'
      rw [hdr] at hc'
      exact hR hn c hc'

/-- A vector of two with room for two more; inserting two at the front costs 2 + 2 + 2 operations; the fourth (a move) throws. -/
def two : Vec Nat := ⟨[.live 1, .live 2, .raw, .raw], 4, 2⟩

example : Vec.Rep two [1, 2] ∧ Vec.NoStray two ∧ 0 < two.size ∧ [8, 9].length + two.size ≤ two.cap :=
  ⟨⟨rfl, rfl, [.raw, .raw], rfl⟩, by simp [Vec.NoStray, two], by decide, by decide⟩
example : insertRange (fun _ => true) 3 1 two 0 [8, 9] = .threw ⟨[.live 1, .junk, .junk, .live 2], 4, 2⟩ := by rfl
example : insertRange (fun _ => true) 6 1 two 0 [8, 9] = .done ⟨[.live 8, .live 9, .live 1, .live 2], 4, 4⟩ := by rfl

/-! ## One element: the exact state -/

theorem shiftUpT_at (n : Nat) : ∀ {b : Cells α} {pos d : Nat} (k : Nat) {c : Cells α}, k < n →
    b.shiftUp false (pos + (n - k)) d k = .ok c → (∃ b', b.shiftUp false pos d n = .ok b') →
    shiftUpT k b pos d n = .threw (c, ⟨0⟩) := by
  induction n with
  | zero => intro b pos d k c hk; omega
  | succ n ih =>
    intro b pos d k c hk e ⟨b', e'⟩
    simp only [Cells.shiftUp] at e'
    cases hm : b.moveCell false (pos + n) (pos + n + d) <;> rw [hm] at e' <;> simp at e'
    cases k with
    | zero =>
      simp [Cells.shiftUp] at e; subst e
      simp [shiftUpT, moveT, hm, St.andThen]
    | succ k =>
      rw [show pos + (n + 1 - (k + 1)) = pos + (n - k) by omega] at e
      simp only [Cells.shiftUp] at e
      rw [show pos + (n - k) + k = pos + n by omega, hm] at e
      simp only [Res.ok_bind] at e
      simp only [shiftUpT, moveT, hm, St.andThen]
      exact ih k (by omega) e ⟨b', e'⟩

/-- What the `j`-th exception during an insertion of one element leaves: `j` elements moved up, a valueless object in the gap. -/
def gap (l : List α) (j : Nat) (R : Cells α) : Cells α :=
  (l.take (l.length - j)).map .live ++ (.junk :: ((l.drop (l.length - j)).map .live ++ R))

theorem shift1_ok {v : Vec α} {l : List α} (h : Vec.Rep v l) (hn : Vec.NoStray v) (hd : v.size < v.cap) :
    ∃ b1 R, v.buf.constructJunk v.size = .ok b1 ∧ (∀ c ∈ R, c = .raw) ∧ v.cap = v.size + 1 + R.length ∧
      (∀ j, j ≤ v.size → b1.shiftUp false (v.size - j) 1 j = .ok (gap l j R)) := by
  have h2 := h.2.1
  have hb := (Vec.noStray_iff h).1 hn
  refine ⟨l.map .live ++ (.junk :: List.replicate (v.cap - v.size - 1) .raw), List.replicate (v.cap - v.size - 1) .raw, ?_, ?_, ?_, ?_⟩
  · rw [hb, show v.cap - v.size = (v.cap - v.size - 1) + 1 by omega, List.replicate_succ, Cells.constructJunk_append (by simp [h2])]
    simp
  · intro c hc; exact (List.mem_replicate.1 hc).2
  · simp; omega
  · intro j hj
    have := Cells.shiftUp_append (A := (l.take (l.length - j)).map .live) (M := l.drop (l.length - j))
      (R := List.replicate (v.cap - v.size - 1) .raw) (d := 1) (pos := v.size - j) false (by omega) (by simp; omega)
    rw [show (l.drop (l.length - j)).length = j by simp; omega] at this
    unfold gap
    simp only [List.replicate_one, List.singleton_append] at this
    rw [← this]
    congr 1
    rw [← List.append_assoc, ← List.map_append, List.take_append_drop]

/-- **The exact state an exception leaves** when one element is inserted before the end of a vector with room: the `j`-th assignment
after the construction throws.  The vector keeps its size; with `j > 0` a valueless object stands among its elements and the
last element is behind the end, out of reach and never destroyed. -/
theorem C169_insert_exact {can : Nat → Bool} {v : Vec α} {l : List α} {f : Nat} (h : Vec.Rep v l) (hn : Vec.NoStray v) {p : Nat}
    (hp : p < v.size) (hd : v.size < v.cap) (x : α) :
    insert can 0 (f + 1) v p x = .died ∧
    ∃ R, (∀ c ∈ R, c = .raw) ∧
      (∀ j, j ≤ v.size - p → insert can (j + 1) (f + 1) v p x = .threw ⟨gap l j R, v.cap, v.size⟩) ∧
      (∀ j, v.size - p < j → insert can (j + 1) (f + 1) v p x =
        .done ⟨(l.take p ++ x :: l.drop p).map .live ++ R, v.cap, v.size + 1⟩) := by
  have h2 := h.2.1
  have he : ∀ k, insert can k (f + 1) v p x = finishVec v (v.size + 1) (insertCells k v.buf v.size p [x]) := by
    intro k
    rw [insert, if_neg (by omega), if_pos hd, if_neg (by omega)]
  obtain ⟨b1, R, e1, hR, hcap, e2⟩ := shift1_ok h hn hd
  have e1' : v.buf.junkRange v.size [x].length = .ok b1 := by simp [Cells.junkRange, e1]
  have hj := fun k => junkRangeT_ok [x].length k e1'
  have hfull := e2 (v.size - p) (by omega)
  rw [show v.size - (v.size - p) = p by omega] at hfull
  have e5 : (gap l (v.size - p) R).assign false p x = .ok ((l.take p ++ x :: l.drop p).map .live ++ R) := by
    unfold gap
    rw [show l.length - (v.size - p) = p by omega, Cells.assign_append x (by simp; omega) (by simp)]
    simp
  refine ⟨by rw [he, insertCells, (hj 0).1 (by simp)]; rfl, R, hR, fun j hjn => ?_, fun j hjn => ?_⟩
  · rw [he, insertCells, (hj (j + 1)).2 (by simp)]
    simp only [St.andThen, List.length_singleton, Nat.add_sub_cancel]
    by_cases hlt : j < v.size - p
    · have := shiftUpT_at (v.size - p) (b := b1) (pos := p) (d := 1) j (c := gap l j R) hlt
        (by rw [show p + (v.size - p - j) = v.size - j by omega]; exact e2 j (by omega)) ⟨_, hfull⟩
      rw [this]; rfl
    · have hje : j = v.size - p := by omega
      rw [(shiftUpT_ok (v.size - p) j hfull).2 (by omega)]
      subst hje
      simp only [assignListT, assignT, e5, St.andThen, Nat.sub_self]
      rfl
  · rw [he, insertCells, (hj (j + 1)).2 (by simp)]
    simp only [St.andThen, List.length_singleton, Nat.add_sub_cancel]
    rw [(shiftUpT_ok (v.size - p) j hfull).2 (by omega)]
    obtain ⟨i, hi⟩ : ∃ i, j - (v.size - p) = i + 1 := ⟨j - (v.size - p) - 1, by omega⟩
    simp only [assignListT, assignT, hi, e5, St.andThen]
    rfl

/-- **Violated.**  After an exception in the middle of an insertion the last element cannot be read through the vector any more
(it is behind the end), one of the places within the vector has no specified value, and one object is never destroyed. -/
theorem C169_insert_violated {can : Nat → Bool} {v : Vec α} {l : List α} {f : Nat} (h : Vec.Rep v l) (hn : Vec.NoStray v) {p : Nat}
    (hp : p < v.size) (hd : v.size < v.cap) (x : α) {j : Nat} (hj0 : 0 < j) (hj : j ≤ v.size - p) :
    ∃ v', insert can (j + 1) (f + 1) v p x = .threw v' ∧ Usable v' v.size ∧ v'.buf.get (v.size - j) = .ub ∧
      v'.buf[v.size]? = some (.live (l.getLast (by intro e; subst e; have := h.2.1; simp at this; omega))) ∧
      v'.toList = .ub ∧ Abandons v' 1 := by
  have h2 := h.2.1
  obtain ⟨_, R, hR, ht, _⟩ := C169_insert_exact (can := can) (f := f) h hn hp hd x
  have hg : (gap l j R)[v.size - j]? = some .junk := by
    unfold gap
    rw [List.getElem?_append_right (by simp; omega)]
    simp [h2]
  have hlen : ∀ i, i < v.size + 1 → ∃ c, (gap l j R)[i]? = some c ∧ c.isLive = true := by
    intro i hi
    by_cases h1 : i < l.length - j
    · refine ⟨.live l[i], ?_, rfl⟩
      unfold gap
      rw [List.getElem?_append_left (by simp; omega)]
      simp [List.getElem?_take, h1, show i < l.length by omega]
    · by_cases h3 : i = v.size - j
      · exact ⟨.junk, by rw [h3]; exact hg, rfl⟩
      · refine ⟨.live l[i - 1], ?_, rfl⟩
        unfold gap
        rw [List.getElem?_append_right (by simp; omega)]
        simp only [List.length_map, List.length_take]
        rw [show i - min (l.length - j) l.length = (i - 1 - (l.length - j)) + 1 by omega, List.getElem?_cons_succ,
          List.getElem?_append_left (by simp; omega)]
        simp only [List.getElem?_map, List.getElem?_drop]
        rw [show l.length - j + (i - 1 - (l.length - j)) = i - 1 by omega]
        simp [show i - 1 < l.length by omega]
  have hget : (gap l j R).get (v.size - j) = .ub := by unfold Cells.get; rw [hg]
  refine ⟨_, ht j hj, ⟨rfl, fun i hi => hlen i (by omega)⟩, hget, ?_, ?_, ?_⟩
  · show (gap l j R)[v.size]? = _
    unfold gap
    rw [List.getElem?_append_right (by simp; omega)]
    simp only [List.length_map, List.length_take]
    rw [show v.size - min (l.length - j) l.length = (j - 1) + 1 by omega, List.getElem?_cons_succ,
      List.getElem?_append_left (by simp; omega)]
    simp only [List.getElem?_map, List.getElem?_drop]
    rw [show l.length - j + (j - 1) = l.length - 1 by omega, ← List.getLast?_eq_getElem?, List.getLast?_eq_some_getLast]
    rfl
  · have : ∀ (n i : Nat), i ≤ v.size - j → v.size - j < i + n → (gap l j R).getRange i n = .ub := by
      intro n
      induction n with
      | zero => intro i h1 h3; omega
      | succ n ih =>
        intro i h1 h3
        simp only [Cells.getRange]
        by_cases hi : i = v.size - j
        · rw [hi, hget]; rfl
        · cases hh : (gap l j R).get i with
          | ok a => simp only [Res.ok_bind]; rw [ih (i + 1) (by omega) (by omega)]; rfl
          | ub => rfl
          | loop => unfold Cells.get at hh; split at hh <;> simp at hh
    exact this v.size 0 (by omega) (by omega)
  · refine abandons_of (n := v.size) (d := 1) rfl hlen fun i hi => ?_
    show (gap l j R)[i]? = none ∨ (gap l j R)[i]? = some .raw
    unfold gap
    rw [List.getElem?_append_right (by simp; omega)]
    simp only [List.length_map, List.length_take]
    rw [show i - min (l.length - j) l.length = (i - (l.length - j) - 1) + 1 by omega, List.getElem?_cons_succ,
      List.getElem?_append_right (by simp; omega)]
    cases e : R[i - (l.length - j) - 1 - (List.map Cell.live (List.drop (l.length - j) l)).length]? with
    | none => exact Or.inl rfl
    | some c => exact Or.inr (by rw [hR c (List.mem_of_getElem? e)])

example : insert (fun _ => true) 2 1 two 0 9 = .threw ⟨[.live 1, .junk, .live 2, .raw], 4, 2⟩ := by rfl
example : 0 < 1 ∧ 1 ≤ two.size - 0 ∧ two.size < two.cap := by decide

/-- Growing first does not change any of it: the block is moved by `realloc`, which runs no element operation. -/
theorem C169_insert_grows {can : Nat → Bool} {v : Vec α} {f p k : Nat} (hp : p ≤ v.size) (hf : v.size = v.cap) (x : α) :
    insert can k (f + 1) v p x = insert can k f (v.reserve can v.nextCap) p x := by
  rw [insert, if_neg (by omega), if_neg (by omega)]

example : insert (fun _ => true) 2 2 (⟨[.live 1, .live 2], 2, 2⟩ : Vec Nat) 0 9 = .threw ⟨[.live 1, .junk, .live 2], 3, 2⟩ := by rfl

/-! ## Appending and emplacing -/

/-- Appending runs exactly one element operation, a construction: an exception in it ends the program, otherwise the call is `pushBack`. -/
theorem C169_append_exact {can : Nat → Bool} (k : Nat) (f : Nat) : ∀ (v : Vec α) (x : α),
    pushBack can (k + 1) f v x = (match v.pushBack can f x with | .ok v' => .done v' | .ub => .ub | .loop => .loop) ∧
    pushBack can 0 f v x = (match v.pushBack can f x with | .ok _ => .died | .ub => .ub | .loop => .loop) := by
  induction f with
  | zero => intro v x; exact ⟨rfl, rfl⟩
  | succ f ih =>
    intro v x
    unfold pushBack Vec.pushBack
    by_cases h : v.size ≠ v.cap
    · rw [if_pos h, if_pos h, if_pos h]
      unfold constructT
      cases e : v.buf.construct v.size x <;> exact ⟨rfl, rfl⟩
    · rw [if_neg h, if_neg h, if_neg h]
      exact ih _ x

example : pushBack (fun _ => true) 0 1 two 3 = .died ∧ pushBack (fun _ => true) 1 1 two 3 = .done ⟨[.live 1, .live 2, .live 3, .raw], 4, 3⟩ :=
  ⟨rfl, rfl⟩

/-- Inserting or emplacing at the end of a vector with room runs exactly one element operation, a construction: an exception in it ends the
program, otherwise the element is appended; beyond the end both calls are undefined. -/
theorem C169_end_exact {can : Nat → Bool} {v : Vec α} {l : List α} (h : Vec.Rep v l) (hd : v.size < v.cap) (x : α) (f : Nat) :
    insert can 0 (f + 2) v v.size x = .died ∧ emplace can 0 (f + 2) v v.size x = .died ∧
    (∃ v', Vec.Rep v' (l ++ [x]) ∧ v'.cap = v.cap ∧
      ∀ k, insert can (k + 1) (f + 2) v v.size x = .done v' ∧ emplace can (k + 1) (f + 2) v v.size x = .done v') ∧
    ∀ p k, v.size < p → insert can k (f + 1) v p x = .ub ∧ emplace can k (f + 1) v p x = .ub := by
  have he : ∀ k, insert can k (f + 2) v v.size x = pushBack can k (f + 1) v x ∧ emplace can k (f + 2) v v.size x = pushBack can k (f + 1) v x := by
    intro k
    rw [insert, if_neg (by omega), if_pos hd, if_pos rfl, emplace, if_neg (by omega), if_pos hd, if_pos rfl]
    exact ⟨rfl, rfl⟩
  obtain ⟨v', hpb, a, b, _⟩ := Vec.pushBack_room (can := can) (f := f) h (by omega) x
  refine ⟨?_, ?_, ⟨v', a, b, fun k => ?_⟩, fun p k hp => ?_⟩
  · rw [(he 0).1, (C169_append_exact 0 _ _ _).2, hpb]
  · rw [(he 0).2, (C169_append_exact 0 _ _ _).2, hpb]
  · rw [(he _).1, (he _).2, (C169_append_exact k _ _ _).1, hpb]
    exact ⟨rfl, rfl⟩
  · rw [insert, if_pos hp, emplace, if_pos hp]
    exact ⟨rfl, rfl⟩

example : insert (fun _ => true) 1 4 (⟨[.live 1, .raw], 2, 1⟩ : Vec Nat) 1 9 = .done ⟨[.live 1, .live 9], 2, 2⟩ ∧
    insert (fun _ => true) 0 4 (⟨[.live 1, .raw], 2, 1⟩ : Vec Nat) 1 9 = .died ∧
    insert (fun _ => true) 1 4 (⟨[.live 1, .raw], 2, 1⟩ : Vec Nat) 2 9 = .ub := ⟨rfl, rfl, rfl⟩

private theorem pushBackList_end {can : Nat → Bool} {f : Nat} : ∀ (xs : List α) (k : Nat) {v : Vec α} {l : List α}, Vec.Rep v l →
    Vec.NoStray v → xs.length + v.size ≤ v.cap →
    (k < xs.length → pushBackList can (f + 1) k v xs = .died) ∧
    (xs.length ≤ k → ∃ v', pushBackList can (f + 1) k v xs = .done v' ∧ Vec.Rep v' (l ++ xs) ∧ Vec.NoStray v' ∧ v'.cap = v.cap)
  | [], k, v, l, h, hn, _ => ⟨fun c => absurd c (by simp), fun _ => ⟨v, rfl, by simpa using h, hn, rfl⟩⟩
  | x :: xs, k, v, l, h, hn, hd => by
    simp only [List.length_cons] at hd ⊢
    obtain ⟨v₁, hpb, a, b, c⟩ := Vec.pushBack_room (can := can) (f := f) h (by omega) x
    cases k with
    | zero =>
      refine ⟨fun _ => ?_, fun c => by omega⟩
      rw [pushBackList, (C169_append_exact 0 _ _ _).2, hpb]
    | succ k =>
      have hs : v₁.size = v.size + 1 := by have := a.2.1; have := h.2.1; simp at *; omega
      obtain ⟨i1, i2⟩ := pushBackList_end (can := can) (f := f) xs k a (c hn) (by omega)
      have e : pushBackList can (f + 1) (k + 1) v (x :: xs) = pushBackList can (f + 1) k v₁ xs := by
        rw [pushBackList, (C169_append_exact k _ _ _).1, hpb]
        rfl
      rw [e]
      refine ⟨fun hk => i1 (by omega), fun hk => ?_⟩
      obtain ⟨v', q1, q2, q3, q4⟩ := i2 (by omega)
      exact ⟨v', q1, by simpa using q2, q3, q4.trans b⟩

/-- The remaining cases of a range insertion: at the end an exception in one of the constructions ends the program; an empty range changes
nothing; growing first does not change any of it; beyond the end the call is undefined. -/
theorem C169_range_end_exact {can : Nat → Bool} {v : Vec α} {l xs : List α} (h : Vec.Rep v l) (hn : Vec.NoStray v) (f k : Nat) :
    (0 < xs.length → xs.length + v.size ≤ v.cap →
      (k < xs.length → insertRange can k (f + 2) v v.size xs = .died) ∧
      (xs.length ≤ k → ∃ v', insertRange can k (f + 2) v v.size xs = .done v' ∧ Vec.Rep v' (l ++ xs) ∧ Vec.NoStray v' ∧ v'.cap = v.cap)) ∧
    (∀ p, p ≤ v.size → insertRange can k (f + 1) v p [] = .done v) ∧
    (∀ p, p ≤ v.size → v.cap < xs.length + v.size → can (v.cap + xs.length) = true →
      ∃ w, Vec.Rep w l ∧ Vec.NoStray w ∧ w.cap = v.cap + xs.length ∧
        insertRange can k (f + 1) v p xs = insertRange can k f w p xs) ∧
    (∀ p, v.size < p → insertRange can k (f + 1) v p xs = .ub) := by
  have hc := h.size_le_cap
  refine ⟨fun h0 hd => ?_, fun p hp => ?_, fun p hp hd hcan => ?_, fun p hp => ?_⟩
  · rw [insertRange, if_neg (by omega), if_neg (by omega), if_pos hd, if_pos rfl]
    exact pushBackList_end xs k h hn hd
  · rw [insertRange, if_neg (by omega), if_pos (by simp)]
  · refine ⟨v.reserve can (v.cap + xs.length), Vec.reserve_rep h _, Vec.reserve_noStray h hn _, ?_, ?_⟩
    · rw [Vec.reserve_cap _ hcan]; omega
    · rw [insertRange, if_neg (by omega), if_neg (by omega), if_neg (by omega)]
  · rw [insertRange, if_pos hp]

example : insertRange (fun _ => true) 1 3 (⟨[.live 1], 1, 1⟩ : Vec Nat) 1 [8, 9] = .died ∧
    insertRange (fun _ => true) 2 3 (⟨[.live 1], 1, 1⟩ : Vec Nat) 1 [8, 9] = .done ⟨[.live 1, .live 8, .live 9], 3, 3⟩ ∧
    insertRange (fun _ => true) 2 3 (⟨[.live 1], 1, 1⟩ : Vec Nat) 2 [8, 9] = .ub := ⟨rfl, rfl, rfl⟩

/-- Erasing the last element or at the end runs no operation that can throw: it returns, whatever `k` is; beyond the end it is undefined. -/
theorem C169_erase_end_exact {v : Vec α} {l : List α} (h : Vec.Rep v l) (hn : Vec.NoStray v) (k : Nat) :
    (∀ p, p + 1 = v.size → ∃ v', erase k v p = .done v' ∧ Vec.Rep v' l.dropLast ∧ Vec.NoStray v' ∧ v'.cap = v.cap) ∧
    erase k v v.size = .done v ∧ ∀ p, v.size < p → erase k v p = .ub := by
  refine ⟨fun p hp => ?_, ?_, fun p hp => ?_⟩
  · obtain ⟨v', a, b, c, d⟩ := Vec.popBack_ok (triv := false) h
    exact ⟨v', by rw [erase, if_neg (by omega), if_neg (by omega), if_pos hp, a], b, d hn, c⟩
  · rw [erase, if_neg (by omega), if_pos rfl]
  · rw [erase, if_pos hp]

example : erase 0 (⟨[.live 1, .live 2, .live 3], 3, 3⟩ : Vec Nat) 2 = .done ⟨[.live 1, .live 2, .raw], 3, 2⟩ ∧
    erase 0 (⟨[.live 1, .raw], 2, 1⟩ : Vec Nat) 1 = .done ⟨[.live 1, .raw], 2, 1⟩ ∧
    erase 5 (⟨[.live 1, .raw], 2, 1⟩ : Vec Nat) 2 = .ub := ⟨rfl, rfl, rfl⟩

/-- `emplace` before the end: both constructions end the program when they throw, the moves in between let the exception out. -/
theorem C169_emplace_exact {can : Nat → Bool} {v : Vec α} {l : List α} {f : Nat} (h : Vec.Rep v l) (hn : Vec.NoStray v) {p : Nat}
    (hp : p < v.size) (hd : v.size < v.cap) (x : α) :
    emplace can 0 (f + 1) v p x = .died ∧ emplace can (v.size - p + 1) (f + 1) v p x = .died ∧
    ∃ R, (∀ c ∈ R, c = .raw) ∧
      (∀ j, j < v.size - p → emplace can (j + 1) (f + 1) v p x = .threw ⟨gap l j R, v.cap, v.size⟩) ∧
      (∀ j, v.size - p < j → emplace can (j + 1) (f + 1) v p x =
        .done ⟨(l.take p ++ x :: l.drop p).map .live ++ R, v.cap, v.size + 1⟩) := by
  have h2 := h.2.1
  have he : ∀ k, emplace can k (f + 1) v p x = finishVec v (v.size + 1) (emplaceCells k v.buf v.size p x) := by
    intro k
    rw [emplace, if_neg (by omega), if_pos hd, if_neg (by omega)]
  obtain ⟨b1, R, e1, hR, hcap, e2⟩ := shift1_ok h hn hd
  have hj : ∀ j, constructJunkT (j + 1) v.buf v.size = .done (b1, ⟨j⟩) := by intro j; simp [constructJunkT, e1]
  have hfull := e2 (v.size - p) (by omega)
  rw [show v.size - (v.size - p) = p by omega] at hfull
  have e5 : (gap l (v.size - p) R).construct p x = .ok ((l.take p ++ x :: l.drop p).map .live ++ R) := by
    unfold gap
    rw [show l.length - (v.size - p) = p by omega, Cells.construct_append x (by simp; omega)]
    simp
  refine ⟨by rw [he]; simp [emplaceCells, constructJunkT, e1, St.andThen, finishVec], ?_, R, hR, fun j hjn => ?_, fun j hjn => ?_⟩
  · rw [he, emplaceCells, hj]
    simp only [St.andThen]
    rw [(shiftUpT_ok (v.size - p) (v.size - p) hfull).2 (Nat.le_refl _)]
    simp only [Nat.sub_self, constructT, e5]
    rfl
  · rw [he, emplaceCells, hj]
    simp only [St.andThen]
    rw [shiftUpT_at (v.size - p) (b := b1) (pos := p) (d := 1) j (c := gap l j R) hjn
        (by rw [show p + (v.size - p - j) = v.size - j by omega]; exact e2 j (by omega)) ⟨_, hfull⟩]
    rfl
  · rw [he, emplaceCells, hj]
    simp only [St.andThen]
    rw [(shiftUpT_ok (v.size - p) j hfull).2 (by omega)]
    obtain ⟨i, hi⟩ : ∃ i, j - (v.size - p) = i + 1 := ⟨j - (v.size - p) - 1, by omega⟩
    simp only [hi, constructT, e5]
    rfl

example : emplace (fun _ => true) 3 1 two 0 9 = .died ∧ emplace (fun _ => true) 2 1 two 0 9 = .threw ⟨[.live 1, .junk, .live 2, .raw], 4, 2⟩ ∧
    emplace (fun _ => true) 4 1 two 0 9 = .done ⟨[.live 9, .live 1, .live 2, .raw], 4, 3⟩ := ⟨rfl, rfl, rfl⟩

/-! ## Erasing -/

/-- Erasing an inner element: an exception thrown by any of the moves leaves the vector with all its places holding objects, its
elements before the place untouched, and every object will be destroyed. -/
theorem C169_erase {v : Vec α} {l : List α} (h : Vec.Rep v l) (hn : Vec.NoStray v) {p : Nat} (hp : p + 1 < v.size) (k : Nat) :
    (k < v.size - (p + 1) → ∃ v', erase k v p = .threw v' ∧ Usable v' v.size ∧
      (∀ i, (hi : i < p) → (hil : i < l.length) → v'.buf.get i = .ok l[i]) ∧ Abandons v' 0) ∧
    (v.size - (p + 1) ≤ k → ∃ v', erase k v p = .done v' ∧ v.erase false p = .ok v') := by
  have h2 := h.2.1
  have he : erase k v p = finishVec v (v.size - 1) (shiftDownT k v.buf (p + 1) p (v.size - (p + 1))) := by
    rw [erase, if_neg (by omega), if_neg (by omega), if_neg (by omega)]
  obtain ⟨R, h3⟩ := h.2.2
  have hb : v.buf = (l.take p).map .live ++ ([.live l[p]] ++ ((l.drop (p + 1)).map .live ++ R)) := by
    rw [h3]
    have : l.drop p = l[p] :: l.drop (p + 1) := List.drop_eq_getElem_cons (by omega)
    have hl : l.map Cell.live = (l.take p).map .live ++ ((l[p] :: l.drop (p + 1)).map .live) := by
      rw [← this, ← List.map_append, List.take_append_drop]
    rw [hl]
    simp only [List.map_cons, List.append_assoc, List.cons_append, List.nil_append]
  obtain ⟨C', _, _, e⟩ := Cells.shiftDown_append (A := (l.take p).map .live) (C := [.live l[p]]) (M := l.drop (p + 1)) (R := R)
    (src := p + 1) (dst := p) false (by simp) (by simp) (by simp; omega) (by simp; omega)
  rw [← hb, show (l.drop (p + 1)).length = v.size - (p + 1) by simp; omega] at e
  have hs := shiftDownT_ok (v.size - (p + 1)) k e
  refine ⟨fun hk => ?_, fun hk => ?_⟩
  · obtain ⟨c, hc⟩ := hs.1 hk
    have hw0 : Within v.buf v.buf p (v.size + 0) :=
      ⟨rfl, fun _ _ => rfl, fun i _ hi => ⟨_, rep_live h (i := i) (by omega), rfl⟩⟩
    have hw := shiftDownT_within (v.size - (p + 1)) (k := k) (s := p + 1) (d := p) hw0 (by omega) (Nat.le_refl _) (by omega) (by omega) c _
      (Or.inr hc)
    exact ⟨_, by rw [he, hc]; rfl, finish_threw h hn (by omega) hw⟩
  · refine ⟨_, by rw [he, hs.2 hk]; rfl, ?_⟩
    rw [Vec.erase, if_neg (by omega), if_neg (by omega), if_neg (by omega), e]
    rfl

example : erase 0 (⟨[.live 1, .live 2, .live 3], 3, 3⟩ : Vec Nat) 0 = .threw ⟨[.live 1, .live 2, .live 3], 3, 3⟩ ∧
    erase 1 (⟨[.live 1, .live 2, .live 3], 3, 3⟩ : Vec Nat) 0 = .threw ⟨[.live 2, .junk, .live 3], 3, 3⟩ := ⟨rfl, rfl⟩

/-- **Violated.**  Erasing is not undone by an exception: after one move the element to erase is gone and the next place has no specified
value, although the call failed and the size is as before. -/
theorem C169_erase_violated {v : Vec α} {l : List α} (h : Vec.Rep v l) {p : Nat} (hp : p + 2 < v.size) :
    ∃ v', erase 1 v p = .threw v' ∧ v'.size = v.size ∧ v'.buf.get p = .ok (l[p + 1]'(by have := h.2.1; omega)) ∧
      v'.buf[p + 1]? = some .junk := by
  have h2 := h.2.1
  have he : erase 1 v p = finishVec v (v.size - 1) (shiftDownT 1 v.buf (p + 1) p (v.size - (p + 1))) := by
    rw [erase, if_neg (by omega), if_neg (by omega), if_neg (by omega)]
  have hg : ∀ i, (hi : i < l.length) → v.buf.get i = .ok l[i] := by
    intro i hi; unfold Cells.get; rw [rep_live h hi]
  have hlen : l.length ≤ v.buf.length := by have := h.size_le_cap; rw [h.1] at this; omega
  have hm1 : v.buf.moveCell false (p + 1) p = .ok ((v.buf.set (p + 1) .junk).set p (.live (l[p + 1]'(by omega)))) := by
    unfold Cells.moveCell
    rw [hg (p + 1) (by omega)]
    simp only [Res.ok_bind, Cells.assign]
    rw [List.getElem?_set_ne (by omega), rep_live h (i := p) (by omega)]
  have hm2 : ∃ b', Cells.moveCell false ((v.buf.set (p + 1) .junk).set p (.live (l[p + 1]'(by omega)))) (p + 1 + 1) (p + 1) = .ok b' := by
    unfold Cells.moveCell Cells.get
    rw [List.getElem?_set_ne (by omega), List.getElem?_set_ne (by omega), rep_live h (i := p + 1 + 1) (by omega)]
    simp only [Res.ok_bind, Cells.assign]
    rw [List.getElem?_set_ne (by omega), List.getElem?_set_ne (by omega), List.getElem?_set_self (by omega)]
    exact ⟨_, rfl⟩
  obtain ⟨b', hm2⟩ := hm2
  have hn : v.size - (p + 1) = (v.size - (p + 1) - 2) + 1 + 1 := by omega
  refine ⟨⟨(v.buf.set (p + 1) .junk).set p (.live (l[p + 1]'(by omega))), v.cap, v.size⟩, ?_, rfl, ?_, ?_⟩
  · rw [he, hn]
    simp only [shiftDownT, moveT, hm1, St.andThen, hm2]
    rfl
  · unfold Cells.get
    simp only
    rw [List.getElem?_set_self (by simp; omega)]
  · simp only
    rw [List.getElem?_set_ne (by omega), List.getElem?_set_self (by omega)]

example : erase 1 (⟨[.live 1, .live 2, .live 3], 3, 3⟩ : Vec Nat) 0 = .threw ⟨[.live 2, .junk, .live 3], 3, 3⟩ := by rfl

/-! ## The static vector -/

/-- What remains of a static vector: `tail` moves only after the last step (Array.hpp 829, 901). -/
def finishArr (size : Nat) (s : SVec α) : St α → Out (SVec α)
  | .done (b, _) => .done ⟨b, size⟩
  | .threw (b, _) => .threw ⟨b, s.size⟩
  | .died => .died
  | .ub => .ub
  | .loop => .loop

/-- Array.hpp 859-904 before the end; with one value 809-831 and 833-857. -/
def arrInsert (k : Nat) (s : SVec α) (pos : Nat) (xs : List α) : Out (SVec α) :=
  if s.size ≤ pos then .ub
  else if xs.length = 0 then .done s
  else if xs.length + s.size ≤ s.cap then finishArr (s.size + xs.length) s (insertCells k s.buf s.size pos xs)
  else .done s

/-- **Violated for the static vector**, in the same way: the elements constructed behind the end are never destroyed. -/
theorem C169_array_insert_violated {s : SVec α} {l xs : List α} (h : SVec.Rep s l) (hn : Vec.NoStray s.toVec) {p : Nat}
    (hp : p < s.size) (hx : 0 < xs.length) (hd : xs.length + s.size ≤ s.cap) (k : Nat) :
    (k < xs.length → arrInsert k s p xs = .died) ∧
    (xs.length ≤ k → k < xs.length + (s.size - p) + xs.length → ∃ s', arrInsert k s p xs = .threw s' ∧
      Usable s'.toVec s.size ∧ (∀ i, (hi : i < p) → (hil : i < l.length) → s'.buf.get i = .ok l[i]) ∧ Abandons s'.toVec xs.length) ∧
    (xs.length + (s.size - p) + xs.length ≤ k → ∃ s', arrInsert k s p xs = .done s' ∧ SVec.Rep s' (l.take p ++ xs ++ l.drop p)) := by
  have hc := insertCells_ok (v := s.toVec) h hp hx hd k
  have he : arrInsert k s p xs = finishArr (s.size + xs.length) s (insertCells k s.buf s.size p xs) := by
    rw [arrInsert, if_neg (by omega), if_neg (by omega), if_pos hd]
  have h2 : s.size = l.length := h.2.1
  refine ⟨fun hk => by rw [he, hc.1 hk]; rfl, fun hk1 hk2 => ?_, fun hk => ?_⟩
  · obtain ⟨c, e, hw⟩ := hc.2.1 hk1 hk2
    have := finish_threw (v := s.toVec) h hn (Nat.le_of_lt hp) hw
    refine ⟨⟨c, s.size⟩, by rw [he, e]; rfl, this.1, this.2.1, ?_⟩
    have ha := this.2.2
    unfold Abandons Vec.leakedAtDestruction Vec.clean at ha ⊢
    simp only [SVec.toVec] at ha ⊢
    cases hdr : Cells.destroyRange false c 0 s.size <;> rw [hdr] at ha <;> simp_all
  · obtain ⟨R, k', e, _, _⟩ := hc.2.2 hk
    exact ⟨⟨(l.take p ++ xs ++ l.drop p).map .live ++ R, s.size + xs.length⟩, by rw [he, e]; rfl, SVec.rep_of rfl (by simp; omega)⟩

example : arrInsert 2 (⟨[.live 1, .live 2, .raw, .raw], 2⟩ : SVec Nat) 0 [9] = .threw ⟨[.live 1, .junk, .live 2, .raw], 2⟩ := by rfl

namespace Flame
open Thr
example := C169_insert_range_violated (can := fun _ => true) (v := two) (l := [1, 2]) (xs := [8, 9]) (f := 0) ⟨rfl, rfl, [.raw, .raw], rfl⟩
  (by simp [Vec.NoStray, two]) (p := 0) (by decide) (by decide) (by decide) 3
example := C169_insert_exact (can := fun _ => true) (v := two) (l := [1, 2]) (f := 0) ⟨rfl, rfl, [.raw, .raw], rfl⟩
  (by simp [Vec.NoStray, two]) (p := 0) (by decide) (by decide) 9
end Flame

end Thr
end Flame
