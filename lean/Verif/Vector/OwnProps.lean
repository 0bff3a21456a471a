import Verif.Vector.Props

/-! # C55: inserting a vector's own elements -/

namespace Flame
namespace Vec
open Cells (rest)
variable {α : Type u}

/-- The cells from position `p` on once a gap of `n` cells has been opened there: what is left in the moved-from and the new cells,
then the shifted elements. -/
def gapTail (keep : Bool) (l : List α) (p n : Nat) (R : Cells α) : Cells α :=
  ((l.drop p).map (rest keep) ++ List.replicate n Cell.junk).take n ++ ((l.drop p).map Cell.live ++ R)

/-- The storage once a gap of `n` cells has been opened before position `p`. -/
theorem gap_ok {triv : Bool} (keep : Bool) {v : Vec α} {l : List α} {p n : Nat} (h : Rep v l) (hp : p ≤ v.size) (hn : 0 < n)
    (hd : n + v.size ≤ v.cap) :
    ∃ b1 R, v.buf.junkRange v.size n = .ok b1 ∧
      b1.shiftUpK triv keep p n (v.size - p) = .ok ((l.take p).map .live ++ gapTail keep l p n R) ∧
      v.buf.length = l.length + n + R.length := by
  obtain ⟨C, R, hC, hb, -⟩ := rep_split h (p := p) hd
  have h2 := h.2.1
  refine ⟨(l.take p).map .live ++ (l.drop p).map .live ++ (List.replicate n Cell.junk ++ R), R, ?_, ?_, ?_⟩
  · have := Cells.junkRange_append (A := (l.take p).map .live ++ (l.drop p).map .live) (R := R) (M := C) (i := v.size) (by simp; omega)
    rw [hb, ← List.append_assoc]
    rw [hC] at this
    exact this
  · have := Cells.shiftUpK_append (A := (l.take p).map .live) (R := R) (M := l.drop p) (C := List.replicate n Cell.junk) (pos := p)
      (triv := triv) keep (by simpa using hn) (Or.inr (by simp [List.mem_replicate])) (by simp; omega)
    simp only [gapTail, List.length_drop, List.length_replicate, List.append_assoc, ← h2] at this ⊢
    exact this
  · rw [hb]; simp [hC]; omega

/-- What the cells of that storage hold. -/
theorem gap_get {keep : Bool} {l : List α} {R : Cells α} {p n : Nat} (hp : p ≤ l.length) :
    (∀ k, k < n → (gapTail keep l p n R)[k]? =
      some (match l[p + k]? with
        | some a => rest keep a
        | none => .junk)) ∧
    ∀ k, k < l.length - p → (gapTail keep l p n R)[n + k]? =
      (l[p + k]?).map .live := by
  unfold gapTail
  have hl : (((l.drop p).map (rest keep) ++ List.replicate n Cell.junk).take n).length = n := by simp
  refine ⟨fun k hk => ?_, fun k hk => ?_⟩
  · rw [List.getElem?_append_left (by omega), List.getElem?_take, if_pos hk]
    by_cases h : k < l.length - p
    · rw [List.getElem?_append_left (by simpa using h)]
      simp only [List.getElem?_map, List.getElem?_drop]
      rw [List.getElem?_eq_getElem (by omega)]
      rfl
    · rw [List.getElem?_append_right (by simp; omega), List.getElem?_eq_none (show l.length ≤ p + k by omega)]
      rw [List.getElem?_replicate, if_pos (by simp; omega)]
  · rw [List.getElem?_append_right (by omega), hl, Nat.add_sub_cancel_left, List.getElem?_append_left (by simpa using hk)]
    simp

/-- The values copied into the gap from the storage's own cells `[b, b + n)`. -/
theorem ownRange {triv keep : Bool} {l : List α} {R : Cells α} {p n b : Nat} (hp : p < l.length) (hn : 0 < n) (hb : b + n ≤ l.length) :
    (b < p → ∃ xs : List α, xs.length = n ∧ (∀ k, k < n → xs[k]? = l[b + k % (p - b)]?) ∧
      Cells.assignOwn triv ((l.take p).map .live ++ gapTail keep l p n R)
        b p n = .ok ((l.take p ++ xs ++ l.drop p).map .live ++ R)) ∧
    (p ≤ b → keep = true ∨ p + n ≤ b →
      ∃ xs : List α, xs.length = n ∧ (∀ k, k < n → xs[k]? = if b + k < p + n then l[b + k]? else l[b + k - n]?) ∧
      Cells.assignOwn triv ((l.take p).map .live ++ gapTail keep l p n R)
        b p n = .ok ((l.take p ++ xs ++ l.drop p).map .live ++ R)) ∧
    (p ≤ b → b < p + n → keep = false →
      Cells.assignOwn triv ((l.take p).map .live ++ gapTail keep l p n R)
        b p n = .ub) := by
  have hl : (((l.drop p).map (rest keep) ++ List.replicate n Cell.junk).take n).length = n := by simp
  have hnr : ∀ c ∈ (gapTail keep l p n R).take n, c ≠ .raw := by
    intro c hc
    unfold gapTail at hc
    rw [List.take_append_of_le_length (by omega), List.take_of_length_le (by omega)] at hc
    rcases List.mem_append.1 (List.mem_of_mem_take hc) with h | h
    · obtain ⟨a, -, rfl⟩ := List.mem_map.1 h
      cases keep <;> simp [rest]
    · rw [(List.mem_replicate.1 h).2]; simp
  have hdrop : (gapTail keep l p n R).drop n = (l.drop p).map .live ++ R := by
    unfold gapTail
    rw [List.drop_append_of_le_length (by omega), List.drop_of_length_le (by omega)]; rfl
  obtain ⟨g1, g2⟩ := gap_get (keep := keep) (R := R) (n := n) (Nat.le_of_lt hp)
  refine ⟨fun hbp => ?_, fun hbp hk => ?_, fun hbp hbn hk => ?_⟩
  · have e := Cells.assignOwn_behind (triv := triv) (n := n) (L := l.take p)
      (Q := gapTail keep l p n R) (src := b) (dst := p)
      (by simp; omega) (by simp; omega) (by simp [gapTail]) (Or.inr hnr)
    obtain ⟨x1, x2, x3⟩ := Cells.extend_eq (L := l.take p) (src := b) (n := n) (by simp; omega)
    have hpl : (l.take p).length = p := by simp; omega
    rw [hpl] at x1 x2 x3
    refine ⟨(Cells.extend (l.take p) b n).drop p, by simp [x1], fun k hk => ?_, ?_⟩
    · rw [List.getElem?_drop, x3 k hk, List.getElem?_take, if_pos]
      have := Nat.mod_lt k (show 0 < p - b by omega)
      omega
    · rw [e, hdrop]
      have : Cells.extend (l.take p) b n = l.take p ++ (Cells.extend (l.take p) b n).drop p := by
        have : (Cells.extend (l.take p) b n).take p = l.take p := by
          apply List.ext_getElem?
          intro k
          by_cases hk : k < p
          · rw [List.getElem?_take, if_pos hk, x2 k hk]
          · rw [List.getElem?_eq_none (by simp; omega), List.getElem?_eq_none (by simp; omega)]
        conv => lhs; rw [← List.take_append_drop p (Cells.extend (l.take p) b n), this]
      conv => lhs; rw [this]
      simp
  · let f : Nat → Option α := fun k => if b + k < p + n then l[b + k]? else l[b + k - n]?
    let xs : List α := (List.range n).filterMap f
    have hf : ∀ k, k < n → f k ≠ none := by
      intro k hk'
      show (if b + k < p + n then l[b + k]? else l[b + k - n]?) ≠ none
      split <;> rw [List.getElem?_eq_getElem (by omega)] <;> simp
    have hx : ∀ m, m ≤ n → ((List.range m).filterMap f).length = m ∧ ∀ k, k < m → ((List.range m).filterMap f)[k]? = f k := by
      intro m
      induction m with
      | zero => intro _; exact ⟨rfl, fun k hk => absurd hk (by omega)⟩
      | succ m ih =>
        intro hm
        obtain ⟨i1, i2⟩ := ih (by omega)
        cases hv : f m with
        | none => exact absurd hv (hf m (by omega))
        | some a =>
          rw [List.range_succ, List.filterMap_append]
          simp only [List.filterMap_cons, hv, List.filterMap_nil]
          refine ⟨by simp [i1], fun k hk => ?_⟩
          by_cases hkm : k < m
          · rw [List.getElem?_append_left (by omega), i2 k hkm]
          · have : k = m := by omega
            subst this
            rw [List.getElem?_append_right (by omega), i1, hv]; simp
    obtain ⟨x1, x2⟩ := hx n (Nat.le_refl _)
    refine ⟨xs, x1, x2, ?_⟩
    have e := Cells.assignOwn_ahead (triv := triv) (xs := xs) (P := (l.take p).map .live)
      (Q := gapTail keep l p n R) (s := b - p) (src := b) (dst := p)
      (by simp; omega) (by simp; omega) (by simp [xs, x1, gapTail]) (Or.inr (by simp only [xs, x1]; exact hnr)) (fun k hk' => by
        have hk'' : k < n := by simpa [xs, x1] using hk'
        have hxk := x2 k hk''
        by_cases hc : b + k < p + n
        · rw [g1 (b - p + k) (by omega), show p + (b - p + k) = b + k by omega, List.getElem?_eq_getElem (by omega)]
          have : f k = some l[b + k] := by show (if _ then _ else _) = _; rw [if_pos hc, List.getElem?_eq_getElem (by omega)]
          rw [this, List.getElem?_eq_getElem hk'] at hxk
          have hkeep : keep = true := by rcases hk with h | h; exact h; omega
          simp only [Option.some.injEq] at hxk
          rw [hxk]; simp [rest, hkeep]
        · rw [show b - p + k = n + (b + k - n - p) by omega, g2 _ (by omega), show p + (b + k - n - p) = b + k - n by omega]
          have : f k = l[b + k - n]? := by show (if _ then _ else _) = _; rw [if_neg hc]
          rw [this, List.getElem?_eq_getElem hk'] at hxk
          rw [← hxk]; rfl)
    rw [show xs.length = n from x1, hdrop] at e
    rw [e]; simp
  · obtain ⟨m, rfl⟩ : ∃ m, n = m + 1 := ⟨n - 1, by omega⟩
    have hg : Cells.get ((l.take p).map .live ++ gapTail keep l p (m + 1) R) b = .ub := by
      have := g1 (b - p) (by omega)
      rw [show p + (b - p) = b by omega, List.getElem?_eq_getElem (l := l) (by omega)] at this
      simp only [Cells.get]
      rw [List.getElem?_append_right (by simp; omega)]
      simp only [List.length_map, List.length_take, Nat.min_eq_left (Nat.le_of_lt hp)]
      rw [this]
      simp [rest, hk]
    simp only [Cells.assignOwn, hg, Res.ub_bind]

/-- Where `v.insert(begin()+p, v[i])` and `v.emplace(begin()+p, v[i])` (without reallocation) take the value from: an element before the
position is inserted correctly; the element at the position only if moving from it leaves its value; a later element is
replaced by its predecessor. -/
theorem C55_insert_own {triv keep : Bool} {v : Vec α} {l : List α} (h : Rep v l) (hr : v.size < v.cap) {p i : Nat}
    (hp : p < l.length) (hi : i < l.length) :
    (i < p ∨ i = p ∧ keep = true → ∃ v' v'', v.insertOwn triv keep p i = .ok v' ∧ v.emplaceOwn triv keep p i = .ok v'' ∧
      v'.toList = .ok (l.take p ++ l[i] :: l.drop p) ∧ v''.toList = .ok (l.take p ++ l[i] :: l.drop p)) ∧
    (i = p ∧ keep = false → v.insertOwn triv keep p i = .ub ∧ v.emplaceOwn triv keep p i = .ub) ∧
    (p < i → ∃ v' v'', v.insertOwn triv keep p i = .ok v' ∧ v.emplaceOwn triv keep p i = .ok v'' ∧
      v'.toList = .ok (l.take p ++ l[i - 1] :: l.drop p) ∧ v''.toList = .ok (l.take p ++ l[i - 1] :: l.drop p)) := by
  have h2 := h.2.1
  obtain ⟨b1, R, e1, e2, e4⟩ := gap_ok (triv := triv) keep h (p := p) (n := 1) (by omega) (by omega) (by omega)
  have e0 : v.buf.constructJunk v.size = .ok b1 := by
    simp only [Cells.junkRange] at e1
    cases hh : v.buf.constructJunk v.size <;> simp_all
  have e3 : (l.take p).map Cell.live ++ gapTail keep l p 1 R = (l.take p).map .live ++ rest keep l[p] :: ((l.drop p).map .live ++ R) := by
    rw [gapTail, show (l.drop p).map (rest keep) = rest keep l[p] :: (l.drop (p + 1)).map (rest keep) by
      rw [List.drop_eq_getElem_cons hp, List.map_cons], List.cons_append, List.take_succ_cons, List.take_zero, List.singleton_append]
  rw [e3] at e2
  have fin : ∀ x, Cells.get ((l.take p).map .live ++ rest keep l[p] :: ((l.drop p).map .live ++ R)) i = .ok x →
      ∃ v' v'', v.insertOwn triv keep p i = .ok v' ∧ v.emplaceOwn triv keep p i = .ok v'' ∧
      v'.toList = .ok (l.take p ++ x :: l.drop p) ∧ v''.toList = .ok (l.take p ++ x :: l.drop p) := by
    intro x hx
    have hv : Rep (⟨(l.take p ++ x :: l.drop p).map .live ++ R, v.cap, v.size + 1⟩ : Vec α) (l.take p ++ x :: l.drop p) :=
      ⟨by simp only; rw [h.1, e4]; simp; omega, by simp; omega, R, rfl⟩
    refine ⟨_, _, ?_, ?_, (rep_observe hv).1, (rep_observe hv).1⟩
    · simp only [insertOwn, e0, Res.ok_bind, e2, hx]
      rw [Cells.assign_append x (by simp; omega) (Or.inr (by cases keep <;> simp [rest]))]
      simp
    · simp only [emplaceOwn, e0, Res.ok_bind, e2, hx]
      rw [Cells.construct_append x (by simp; omega)]
      simp
  refine ⟨fun hlt => fin _ ?_, fun heq => ?_, fun hgt => fin _ ?_⟩
  · unfold Cells.get
    rcases hlt with hlt | ⟨rfl, hk⟩
    · rw [List.getElem?_append_left (by simp; omega), List.getElem?_map, List.getElem?_take, if_pos hlt, List.getElem?_eq_getElem hi]
      rfl
    · rw [List.getElem?_append_right (by simp; omega)]
      simp [Nat.min_eq_left (Nat.le_of_lt hp), rest, hk]
  · obtain ⟨rfl, hk⟩ := heq
    have : Cells.get ((l.take i).map .live ++ rest keep l[i] :: ((l.drop i).map .live ++ R)) i = .ub := by
      unfold Cells.get
      rw [List.getElem?_append_right (by simp; omega)]
      simp [Nat.min_eq_left (Nat.le_of_lt hp), rest, hk]
    exact ⟨by simp only [insertOwn, e0, Res.ok_bind, e2, this, Res.ub_bind], by simp only [emplaceOwn, e0, Res.ok_bind, e2, this, Res.ub_bind]⟩
  · unfold Cells.get
    rw [List.getElem?_append_right (by simp; omega)]
    simp only [List.length_map, List.length_take, Nat.min_eq_left (Nat.le_of_lt hp)]
    obtain ⟨k, hk⟩ : ∃ k, i - p = k + 1 := ⟨i - p - 1, by omega⟩
    rw [hk, List.getElem?_cons_succ, List.getElem?_append_left (by simp; omega), List.getElem?_map,
      List.getElem?_drop, show p + k = i - 1 by omega, List.getElem?_eq_getElem (by omega)]
    rfl

/-- **C55 violated**: whenever two neighbouring elements behind the position differ, inserting a reference to the second one inserts
something else. -/
theorem C55_insert_own_violated {triv keep : Bool} {v : Vec α} {l : List α} (h : Rep v l) (hr : v.size < v.cap) {p i : Nat}
    (hpi : p < i) (hi : i < l.length) (hd : l[i - 1] ≠ l[i]) :
    ∃ v', v.insertOwn triv keep p i = .ok v' ∧ v'.toList ≠ .ok (l.take p ++ l[i] :: l.drop p) := by
  obtain ⟨v', _, a, _, b, _⟩ := (C55_insert_own (triv := triv) (keep := keep) h hr (p := p) (by omega) hi).2.2 hpi
  refine ⟨v', a, ?_⟩
  rw [b]
  intro e
  simp only [Res.ok.injEq, List.append_cancel_left_eq, List.cons.injEq] at e
  exact hd e.1

example : Rep (⟨[.live 1, .live 2, .live 3, .raw], 4, 3⟩ : Vec Nat) [1, 2, 3] ∧ 3 < 4 ∧ 0 < 2 ∧ ([1, 2, 3] : List Nat)[2 - 1] ≠ [1, 2, 3][2] :=
  ⟨⟨rfl, rfl, [.raw], rfl⟩, by decide, by decide, by decide⟩

theorem pushOwnLoop_ok {can : Nat → Bool} {f : Nat} : ∀ {n : Nat} {v : Vec α} {l : List α} {b : Nat}, Rep v l → n + v.size ≤ v.cap →
    b + n ≤ l.length → ∃ v', pushOwnLoop can (f + 1) v b n = .ok v' ∧ Rep v' (l ++ (l.drop b).take n) := by
  intro n
  induction n with
  | zero => intro v l b h _ _; exact ⟨v, rfl, by simpa using h⟩
  | succ n ih =>
    intro v l b h hd hb
    have hat := (rep_observe h).2.2.2.2 b (by omega)
    obtain ⟨v1, a, r, c, _⟩ := pushBack_room (can := can) (f := f) h (by omega) l[b]
    obtain ⟨v2, a2, r2⟩ := ih (b := b + 1) r (by rw [c, r.2.1]; simp; rw [← h.2.1]; omega) (by simp; omega)
    simp only [at?] at hat
    refine ⟨v2, by simp [pushOwnLoop, hat, a, a2], ?_⟩
    have : l ++ [l[b]] ++ ((l ++ [l[b]]).drop (b + 1)).take n = l ++ (l.drop b).take (n + 1) := by
      rw [List.drop_append_of_le_length (by omega), List.take_append_of_le_length (by simp; omega), List.append_assoc,
        List.drop_eq_getElem_cons (show b < l.length by omega), List.take_succ_cons, List.singleton_append]
    rw [← this]; exact r2

/-- `v.insert(begin()+p, begin()+b, begin()+e)` with spare capacity: what is inserted.  Correct at the end, for elements before the position
and, if moving leaves values in place, for elements starting at the position; otherwise elements are repeated, unspecified, or taken `e - b`
places too early. -/
theorem C55_insertRange_own {triv keep : Bool} {can : Nat → Bool} {f : Nat} {v : Vec α} {l : List α} (h : Rep v l) {p b e : Nat}
    (hr : (e - b) + v.size ≤ v.cap) (hp : p ≤ l.length) (hbe : b < e) (he : e ≤ l.length) :
    (p = l.length ∨ e ≤ p ∨ p = b ∧ keep = true →
      ∃ v', v.insertRangeOwn triv keep can (f + 1) p b e = .ok v' ∧ v'.toList = .ok (l.take p ++ (l.drop b).take (e - b) ++ l.drop p)) ∧
    (p < l.length → b < p → ∃ v' xs, v.insertRangeOwn triv keep can (f + 1) p b e = .ok v' ∧ v'.toList = .ok (l.take p ++ xs ++ l.drop p) ∧
      xs.length = e - b ∧ ∀ k, k < e - b → xs[k]? = l[b + k % (p - b)]?) ∧
    (p ≤ b → keep = true ∨ p + (e - b) ≤ b → ∃ v' xs, v.insertRangeOwn triv keep can (f + 1) p b e = .ok v' ∧
      v'.toList = .ok (l.take p ++ xs ++ l.drop p) ∧
      xs.length = e - b ∧ ∀ k, k < e - b → xs[k]? = if b + k < p + (e - b) then l[b + k]? else l[b + k - (e - b)]?) ∧
    (p ≤ b → b < p + (e - b) → keep = false → v.insertRangeOwn triv keep can (f + 1) p b e = .ub) := by
  have h2 := h.2.1
  have hmid : Unit → p < l.length → ∃ b1 R, v.buf.junkRange v.size (e - b) = .ok b1 ∧
      b1.shiftUpK triv keep p (e - b) (v.size - p) = .ok ((l.take p).map .live ++ gapTail keep l p (e - b) R) ∧
      v.buf.length = l.length + (e - b) + R.length := fun _ hp => gap_ok (triv := triv) keep h (p := p) (n := e - b) (by omega) (by omega) hr
  have hval : ∀ xs : List α, xs.length = e - b → ∀ R : Cells α, v.buf.length = l.length + (e - b) + R.length →
      Rep (⟨(l.take p ++ xs ++ l.drop p).map .live ++ R, v.cap, v.size + (e - b)⟩ : Vec α) (l.take p ++ xs ++ l.drop p) := by
    intro xs hx R hR
    exact ⟨by simp only; rw [h.1, hR]; simp [hx]; omega, by simp [hx]; omega, R, rfl⟩
  have hpush := fun _ : Unit => pushOwnLoop_ok (can := can) (f := f) h (b := b) (n := e - b) hr (by omega)
  clear h
  have A : Unit → p < l.length → b < p → ∃ v' xs, v.insertRangeOwn triv keep can (f + 1) p b e = .ok v' ∧ v'.toList = .ok (l.take p ++ xs ++ l.drop p) ∧
      xs.length = e - b ∧ ∀ k, k < e - b → xs[k]? = l[b + k % (p - b)]? := by
    intro _ hpl hbp
    obtain ⟨b1, R, e1, e2, e4⟩ := hmid () hpl
    obtain ⟨xs, x1, x2, x3⟩ := (ownRange (triv := triv) (keep := keep) (R := R) hpl (n := e - b) (b := b) (by omega) (by omega)).1 hbp
    refine ⟨_, xs, ?_, (rep_observe (hval xs x1 R e4)).1, x1, x2⟩
    rw [insertRangeOwn, if_neg (by omega), if_neg (by omega), if_pos hr, if_neg (by omega), e1]
    simp only [Res.ok_bind, e2, x3]
  have B : Unit → p ≤ b → keep = true ∨ p + (e - b) ≤ b → ∃ v' xs, v.insertRangeOwn triv keep can (f + 1) p b e = .ok v' ∧
      v'.toList = .ok (l.take p ++ xs ++ l.drop p) ∧
      xs.length = e - b ∧ ∀ k, k < e - b → xs[k]? = if b + k < p + (e - b) then l[b + k]? else l[b + k - (e - b)]? := by
    intro _ hpb hk
    obtain ⟨b1, R, e1, e2, e4⟩ := hmid () (by omega)
    obtain ⟨xs, x1, x2, x3⟩ := (ownRange (triv := triv) (keep := keep) (R := R) (show p < l.length by omega) (n := e - b) (b := b) (by omega)
      (by omega)).2.1 hpb hk
    refine ⟨_, xs, ?_, (rep_observe (hval xs x1 R e4)).1, x1, x2⟩
    rw [insertRangeOwn, if_neg (by omega), if_neg (by omega), if_pos hr, if_neg (by omega), e1]
    simp only [Res.ok_bind, e2, x3]
  refine ⟨fun hc => ?_, A (), B (), fun hpb hbn hk => ?_⟩
  · by_cases hpe : p = l.length
    · obtain ⟨v', a, r⟩ := hpush ()
      clear hpush
      refine ⟨v', ?_, ?_⟩
      · rw [insertRangeOwn, if_neg (by omega), if_neg (by omega), if_pos hr, if_pos (by omega), a]
      · rw [(rep_observe r).1, hpe]; simp
    · have key : ∀ xs : List α, xs.length = e - b → (∀ k, k < e - b → xs[k]? = l[b + k]?) → xs = (l.drop b).take (e - b) := by
        intro xs x1 x2
        apply List.ext_getElem?
        intro k
        by_cases hk : k < e - b
        · rw [x2 k hk, List.getElem?_take, if_pos hk, List.getElem?_drop]
        · rw [List.getElem?_eq_none (by omega), List.getElem?_eq_none (by simp; omega)]
      rcases hc with hc | hc | ⟨hc, hk⟩
      · exact absurd hc hpe
      · obtain ⟨v', xs, a, c, x1, x2⟩ := A () (by omega) (by omega)
        refine ⟨v', a, ?_⟩
        rw [c, key xs x1 fun k hk => ?_]
        rw [x2 k hk, Nat.mod_eq_of_lt (by omega)]
      · obtain ⟨v', xs, a, c, x1, x2⟩ := B () (by omega) (Or.inl hk)
        refine ⟨v', a, ?_⟩
        rw [c, key xs x1 fun k hk => ?_]
        rw [x2 k hk, if_pos (by omega)]
  · obtain ⟨b1, R, e1, e2, e4⟩ := hmid () (by omega)
    have x3 := (ownRange (triv := triv) (keep := keep) (R := R) (show p < l.length by omega) (n := e - b) (b := b) (by omega)
      (by omega)).2.2 hpb hbn hk
    rw [insertRangeOwn, if_neg (by omega), if_neg (by omega), if_pos hr, if_neg (by omega), e1]
    simp only [Res.ok_bind, e2, x3]
    rfl

example : Rep (⟨[.live 1, .live 2, .live 3, .raw, .raw], 5, 3⟩ : Vec Nat) [1, 2, 3] ∧ (2 - 0) + 3 ≤ 5 ∧ 1 ≤ [1, 2, 3].length ∧ 0 < 2 ∧
    2 ≤ [1, 2, 3].length := ⟨⟨rfl, rfl, [.raw, .raw], rfl⟩, by decide, by decide, by decide, by decide⟩

/-- **C55 violated**: without spare capacity the storage is exchanged and the iterators into the old one are used; if the system has no memory
for it, the call never returns. -/
theorem C55_insertRange_own_full_ub {triv keep : Bool} {can : Nat → Bool} {v : Vec α} {p b e f : Nat}
    (hf : v.cap < (e - b) + v.size) (hbe : b < e) :
    (can (v.cap + (e - b)) = true → v.insertRangeOwn triv keep can f p b e = .ub) ∧
    (can (v.cap + (e - b)) = false → p ≤ v.size → e ≤ v.size → v.insertRangeOwn triv keep can f p b e = .loop) := by
  constructor
  · intro hc
    unfold insertRangeOwn
    split
    · rfl
    · simp only [if_neg (show ¬ e - b = 0 by omega), if_neg (show ¬ e - b + v.size ≤ v.cap by omega), hc, if_true]
  · intro hc hp he
    rw [insertRangeOwn, if_neg (by omega), if_neg (by omega), if_neg (by omega), if_neg (by simp [hc])]

example : (⟨[.live 7, .live 8], 2, 2⟩ : Vec Nat).cap < (2 - 0) + (⟨[.live 7, .live 8], 2, 2⟩ : Vec Nat).size := by decide

namespace Flame
open Vec
example := C55_insert_own (triv := true) (keep := false) (v := (⟨[.live 1, .live 2, .live 3, .raw], 4, 3⟩ : Vec Nat)) (l := [1, 2, 3])
  ⟨rfl, rfl, [.raw], rfl⟩ (by decide) (p := 0) (i := 2) (by decide) (by decide)
end Flame

end Vec
end Flame
