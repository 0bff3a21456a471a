import Verif.Vector.Model

/-! # Helper lemmas for the `Vector` model -/

namespace Flame
namespace Vec
variable {α : Type u}

/-- `v` stores exactly the sequence `l`. -/
def Rep (v : Vec α) (l : List α) : Prop :=
  v.cap = v.buf.length ∧ v.size = l.length ∧ ∃ R, v.buf = l.map .live ++ R

/-- No object is alive outside `[begin, end)`. -/
def NoStray (v : Vec α) : Prop := ∀ c ∈ v.buf.drop v.size, c = .raw

theorem Rep.size_le_cap {v : Vec α} {l : List α} (h : Rep v l) : v.size ≤ v.cap := by
  obtain ⟨h1, h2, R, h3⟩ := h
  rw [h1, h2, h3]; simp

theorem rep_empty : Rep (empty : Vec α) [] := ⟨rfl, rfl, [], rfl⟩

theorem rep_mk {A R : Cells α} {l : List α} {n m : Nat} (hA : A = l.map .live ++ R) (hn : n = A.length) (hm : m = l.length) :
    Rep ⟨A, n, m⟩ l := ⟨hn, hm, R, hA⟩

theorem noStray_iff {v : Vec α} {l : List α} (h : Rep v l) :
    NoStray v ↔ v.buf = l.map .live ++ List.replicate (v.cap - v.size) .raw := by
  obtain ⟨h1, h2, R, h3⟩ := h
  unfold NoStray
  have hd : v.buf.drop v.size = R := by rw [h3, h2]; simp
  have hl : v.cap - v.size = R.length := by rw [h1, h2, h3]; simp
  rw [hd, hl, h3]
  simp [List.eq_replicate_iff]

theorem reserve_rep {can : Nat → Bool} {v : Vec α} {l : List α} (h : Rep v l) (n : Nat) :
    Rep (v.reserve can n) l := by
  obtain ⟨h1, h2, R, h3⟩ := h
  unfold reserve
  split
  · split
    · refine ⟨by simp; omega, h2, R ++ List.replicate (n - v.buf.length) .raw, ?_⟩
      simp only
      rw [List.take_of_length_le (by omega), h3]; simp
    · exact ⟨h1, h2, R, h3⟩
  · exact ⟨h1, h2, R, h3⟩

theorem reserve_size {can : Nat → Bool} {v : Vec α} (n : Nat) : (v.reserve can n).size = v.size := by
  unfold reserve; split
  · split <;> rfl
  · rfl

theorem reserve_cap {can : Nat → Bool} {v : Vec α} (n : Nat) (hc : can n = true) :
    (v.reserve can n).cap = max v.cap n := by
  unfold reserve; rw [hc]; split
  · simp only [if_true]; omega
  · omega

theorem reserve_noStray {can : Nat → Bool} {v : Vec α} {l : List α} (hr : Rep v l) (h : NoStray v) (n : Nat) :
    NoStray (v.reserve can n) := by
  have hb := (noStray_iff hr).1 h
  have hle := hr.size_le_cap
  obtain ⟨h1, h2, R, h3⟩ := hr
  unfold reserve
  split
  · split
    · unfold NoStray
      intro c
      simp only
      rw [List.take_of_length_le (by omega), hb, h2]
      simp only [List.append_assoc]
      rw [show l.length = (l.map (Cell.live (α := α))).length by simp, List.drop_left]
      intro hc
      rcases List.mem_append.1 hc with hc | hc <;> exact (List.mem_replicate.1 hc).2
    · exact h
  · exact h

/-- `pushBack` with room. -/
theorem pushBack_room {can : Nat → Bool} {v : Vec α} {l : List α} {f : Nat} (h : Rep v l) (hs : v.size ≠ v.cap) (x : α) :
    ∃ v', v.pushBack can (f + 1) x = .ok v' ∧ Rep v' (l ++ [x]) ∧ v'.cap = v.cap ∧ (NoStray v → NoStray v') := by
  have hle := h.size_le_cap
  obtain ⟨h1, h2, R, h3⟩ := h
  obtain ⟨c, R, rfl⟩ : ∃ c R', R = c :: R' := by
    cases R with
    | nil => exfalso; rw [h3] at h1; simp at h1; omega
    | cons c R => exact ⟨c, R, rfl⟩
  refine ⟨⟨l.map .live ++ .live x :: R, v.cap, v.size + 1⟩, ?_, ?_, rfl, ?_⟩
  · simp only [pushBack, hs, ne_eq, not_false_eq_true, if_true]
    rw [h3, Cells.construct_append x (by simp [h2])]
    rfl
  · refine ⟨?_, by simp [h2], R, by simp⟩
    simp only; rw [h1, h3]; simp
  · intro hn d hd
    apply hn d
    rw [h3, h2, show l.length = (l.map (Cell.live (α := α))).length by simp, List.drop_left]
    simp only at hd
    rw [h2, show l.map Cell.live ++ Cell.live x :: R = (l ++ [x]).map Cell.live ++ R by simp,
      show l.length + 1 = ((l ++ [x]).map (Cell.live (α := α))).length by simp, List.drop_left] at hd
    exact List.mem_cons_of_mem _ hd

theorem nextCap_gt {v : Vec α} (h : v.cap ≠ 1) : v.cap < v.nextCap := by
  unfold nextCap; split <;> omega

theorem pushBack_ok {can : Nat → Bool} (hcan : ∀ n, can n = true) {v : Vec α} {l : List α} {f : Nat} (h : Rep v l)
    (hs : ¬ (v.size = 1 ∧ v.cap = 1)) (x : α) :
    ∃ v', v.pushBack can (f + 2) x = .ok v' ∧ Rep v' (l ++ [x]) ∧
      v'.cap = (if v.size = v.cap then v.nextCap else v.cap) ∧ (NoStray v → NoStray v') := by
  by_cases hf : v.size = v.cap
  · have hne : v.cap ≠ 1 := by omega
    have hg := nextCap_gt hne
    have hc : (v.reserve can v.nextCap).cap = v.nextCap := by rw [reserve_cap _ (hcan _)]; omega
    obtain ⟨v', a, b, c, d⟩ := pushBack_room (can := can) (f := f) (reserve_rep (can := can) h v.nextCap)
      (by rw [hc, reserve_size]; omega) x
    refine ⟨v', ?_, b, ?_, ?_⟩
    · rw [pushBack]; simp only [hf, ne_eq, not_true_eq_false, if_false]; exact a
    · rw [c, hc, if_pos hf]
    · intro hn; exact d (reserve_noStray h hn _)
  · obtain ⟨v', a, b, c, d⟩ := pushBack_room (can := can) (f := f + 1) h hf x
    exact ⟨v', a, b, by rw [c, if_neg hf], d⟩

theorem reserve_fixed {can : Nat → Bool} {v : Vec α} (hc : v.cap = 1) : v.reserve can v.nextCap = v := by
  simp [reserve, nextCap, hc]

theorem pushBack_stuck {can : Nat → Bool} {v : Vec α} (hs : v.size = 1) (hc : v.cap = 1) (x : α) (f : Nat) :
    v.pushBack can f x = .loop := by
  induction f with
  | zero => rfl
  | succ f ih => simp only [pushBack, hs, hc, ne_eq, not_true_eq_false, if_false]; rw [reserve_fixed hc]; exact ih

theorem pushBackList_ok {can : Nat → Bool} {v : Vec α} {l xs : List α} {f : Nat} (h : Rep v l)
    (hs : xs.length + v.size ≤ v.cap) :
    ∃ v', v.pushBackList can (f + 1) xs = .ok v' ∧ Rep v' (l ++ xs) ∧ v'.cap = v.cap ∧ (NoStray v → NoStray v') := by
  induction xs generalizing v l with
  | nil => exact ⟨v, rfl, by simpa using h, rfl, id⟩
  | cons x xs ih =>
    simp only [List.length_cons] at hs
    obtain ⟨v', a, b, c, d⟩ := pushBack_room (can := can) (f := f) h (by omega) x
    obtain ⟨v'', a', b', c', d'⟩ := ih b (by rw [c, b.2.1]; simp; rw [← h.2.1]; omega)
    refine ⟨v'', ?_, by simpa using b', by omega, fun hn => d' (d hn)⟩
    simp only [pushBackList, a, Res.ok_bind]; exact a'

/-- Splitting a represented vector at a position with room for `d` more. -/
theorem rep_split {v : Vec α} {l : List α} (h : Rep v l) {p d : Nat} (hd : d + v.size ≤ v.cap) :
    ∃ C R : Cells α, C.length = d ∧
      v.buf = (l.take p).map .live ++ ((l.drop p).map .live ++ (C ++ R)) ∧ (NoStray v → ∀ c ∈ R, c = .raw) := by
  obtain ⟨h1, h2, R, h3⟩ := h
  have hl : R.length = v.cap - v.size := by rw [h1, h2, h3]; simp
  refine ⟨R.take d, R.drop d, by simp; omega, ?_, ?_⟩
  · rw [List.take_append_drop, ← List.append_assoc, ← List.map_append, List.take_append_drop, h3]
  · intro hn c hc
    refine hn c ?_
    rw [h3, h2, show l.length = (l.map (Cell.live (α := α))).length by simp, List.drop_left]
    exact List.mem_of_mem_drop hc

theorem noStray_of {L : List α} {R : Cells α} {n m : Nat} (hm : m = L.length) (hR : ∀ c ∈ R, c = .raw) :
    NoStray (⟨L.map .live ++ R, n, m⟩ : Vec α) := by
  intro c hc
  simp only at hc
  rw [hm, show L.length = (L.map (Cell.live (α := α))).length by simp, List.drop_left] at hc
  exact hR c hc

theorem shiftIn_ok {triv : Bool} {v : Vec α} {l xs : List α} (h : Rep v l) {p : Nat} (hp : p ≤ v.size)
    (hx : 0 < xs.length) (hd : xs.length + v.size ≤ v.cap) :
    ∃ b1 b2 R, v.buf.junkRange v.size xs.length = .ok b1 ∧ b1.shiftUp triv p xs.length (v.size - p) = .ok b2 ∧
      b2 = (l.take p).map .live ++ (List.replicate xs.length .junk ++ ((l.drop p).map .live ++ R)) ∧
      v.buf.length = l.length + xs.length + R.length ∧ (NoStray v → ∀ c ∈ R, c = .raw) := by
  obtain ⟨C, R, hC, hb, hn⟩ := rep_split h (p := p) hd
  have h2 := h.2.1
  refine ⟨(l.take p).map .live ++ (l.drop p).map .live ++ (List.replicate xs.length .junk ++ R), _, R, ?_, ?_, rfl, ?_, hn⟩
  · have := Cells.junkRange_append (A := (l.take p).map .live ++ (l.drop p).map .live) (R := R) (M := C) (i := v.size)
      (by simp; omega)
    rw [hb, ← List.append_assoc]
    rw [hC] at this
    exact this
  · have := Cells.shiftUp_append (A := (l.take p).map .live) (R := R) (M := l.drop p) (d := xs.length) (pos := p) triv hx
      (by simp; omega)
    simp only [List.length_drop, List.append_assoc, ← h2] at this ⊢
    exact this
  · rw [hb]; simp [hC]; omega

theorem insertRange_mid {triv : Bool} {can : Nat → Bool} {v : Vec α} {l xs : List α} {f : Nat} (h : Rep v l) {p : Nat}
    (hp : p < v.size) (hx : 0 < xs.length) (hd : xs.length + v.size ≤ v.cap) :
    ∃ v', v.insertRange triv can (f + 1) p xs = .ok v' ∧ Rep v' (l.take p ++ xs ++ l.drop p) ∧ v'.cap = v.cap ∧
      (NoStray v → NoStray v') := by
  obtain ⟨b1, b2, R, e1, e2, e3, e4, hn⟩ := shiftIn_ok (triv := triv) (xs := xs) h (Nat.le_of_lt hp) hx hd
  have h2 := h.2.1
  have e5 : b2.assignList triv p xs = .ok ((l.take p ++ xs ++ l.drop p).map .live ++ R) := by
    rw [e3, Cells.assignList_append triv (by simp [List.mem_replicate]) (by simp) (by simp; omega)]
    simp
  refine ⟨⟨(l.take p ++ xs ++ l.drop p).map .live ++ R, v.cap, v.size + xs.length⟩, ?_, ?_, rfl, ?_⟩
  · rw [insertRange, if_neg (by omega), if_neg (by omega), if_pos hd, if_neg (by omega), e1]
    simp only [Res.ok_bind]
    rw [e2]
    simp only [Res.ok_bind]
    rw [e5]
    rfl
  · refine ⟨?_, by simp; omega, R, rfl⟩
    simp only; rw [h.1, e4]; simp; omega
  · intro hs; exact noStray_of (by simp; omega) (hn hs)

theorem insertRange_room {triv : Bool} {can : Nat → Bool} {v : Vec α} {l xs : List α} {f : Nat} (h : Rep v l) {p : Nat}
    (hp : p ≤ v.size) (hd : xs.length + v.size ≤ v.cap) :
    ∃ v', v.insertRange triv can (f + 2) p xs = .ok v' ∧ Rep v' (l.take p ++ xs ++ l.drop p) ∧ v'.cap = v.cap ∧
      (NoStray v → NoStray v') := by
  by_cases hx : xs.length = 0
  · refine ⟨v, ?_, ?_, rfl, id⟩
    · rw [insertRange, if_neg (by omega), if_pos hx]
    · have : xs = [] := by simpa using hx
      simpa [this] using h
  · by_cases hpe : p = v.size
    · obtain ⟨v', a, b, c, d⟩ := pushBackList_ok (can := can) (f := f) h hd
      refine ⟨v', ?_, ?_, c, d⟩
      · rw [insertRange, if_neg (by omega), if_neg hx, if_pos hd, if_pos hpe]; exact a
      · rw [List.take_of_length_le (by rw [hpe, h.2.1]; omega), List.drop_of_length_le (by rw [hpe, h.2.1]; omega)]
        simpa using b
    · exact insertRange_mid h (by omega) (by omega) hd

theorem insertRange_ok {triv : Bool} {can : Nat → Bool} (hcan : ∀ n, can n = true) {v : Vec α} {l xs : List α} {f : Nat}
    (h : Rep v l) {p : Nat} (hp : p ≤ v.size) :
    ∃ v', v.insertRange triv can (f + 3) p xs = .ok v' ∧ Rep v' (l.take p ++ xs ++ l.drop p) ∧
      v'.cap = (if xs.length = 0 ∨ xs.length + v.size ≤ v.cap then v.cap else v.cap + xs.length) ∧
      (NoStray v → NoStray v') := by
  by_cases hd : xs.length = 0 ∨ xs.length + v.size ≤ v.cap
  · obtain ⟨v', a, b, c, d⟩ := insertRange_room (triv := triv) (can := can) (f := f + 1) h hp
      (xs := xs) (by have := h.size_le_cap; omega)
    exact ⟨v', a, b, by rw [c, if_pos hd], d⟩
  · have hc : (v.reserve can (v.cap + xs.length)).cap = v.cap + xs.length := by rw [reserve_cap _ (hcan _)]; omega
    obtain ⟨v', a, b, c, d⟩ := insertRange_room (triv := triv) (can := can) (f := f)
      (reserve_rep (can := can) h (v.cap + xs.length)) (p := p) (xs := xs) (by rw [reserve_size]; exact hp)
      (by rw [hc, reserve_size]; have := h.size_le_cap; omega)
    refine ⟨v', ?_, b, by rw [c, hc, if_neg hd], fun hn => d (reserve_noStray h hn _)⟩
    rw [insertRange, if_neg (by omega), if_neg (by omega), if_neg (by omega)]
    exact a

theorem insert_room {triv : Bool} {can : Nat → Bool} {v : Vec α} {l : List α} {f : Nat} (h : Rep v l) {p : Nat} (x : α)
    (hp : p ≤ v.size) (hd : v.size < v.cap) :
    ∃ v', v.insert triv can (f + 2) p x = .ok v' ∧ v.emplace triv can (f + 2) p x = .ok v' ∧
      Rep v' (l.take p ++ x :: l.drop p) ∧ v'.cap = v.cap ∧ (NoStray v → NoStray v') := by
  by_cases hpe : p = v.size
  · obtain ⟨v', a, b, c, d⟩ := pushBack_room (can := can) (f := f) h (by omega) x
    refine ⟨v', ?_, ?_, ?_, c, d⟩
    · rw [insert, if_neg (by omega), if_pos hd, if_pos hpe]; exact a
    · rw [emplace, if_neg (by omega), if_pos hd, if_pos hpe]; exact a
    · rw [List.take_of_length_le (by rw [hpe, h.2.1]; omega), List.drop_of_length_le (by rw [hpe, h.2.1]; omega)]
      simpa using b
  · obtain ⟨b1, b2, R, e1, e2, e3, e4, hn⟩ := shiftIn_ok (triv := triv) (xs := [x]) h hp (by simp) (by simp; omega)
    have h2 := h.2.1
    have e0 : v.buf.constructJunk v.size = .ok b1 := by
      simp only [Cells.junkRange, List.length_singleton] at e1
      cases hh : v.buf.constructJunk v.size <;> simp_all
    simp only [List.length_singleton, List.replicate_one] at e2 e3 e4
    have e5 : b2.assign triv p x = .ok ((l.take p ++ x :: l.drop p).map .live ++ R) := by
      rw [e3, List.singleton_append, Cells.assign_append x (by simp; omega) (by simp)]
      simp
    have e6 : b2.construct p x = .ok ((l.take p ++ x :: l.drop p).map .live ++ R) := by
      rw [e3, List.singleton_append, Cells.construct_append x (by simp; omega)]
      simp
    refine ⟨⟨(l.take p ++ x :: l.drop p).map .live ++ R, v.cap, v.size + 1⟩, ?_, ?_, ?_, rfl, ?_⟩
    · rw [insert, if_neg (by omega), if_pos hd, if_neg hpe, e0]
      simp only [Res.ok_bind]
      rw [e2]
      simp only [Res.ok_bind]
      rw [e5]
      rfl
    · rw [emplace, if_neg (by omega), if_pos hd, if_neg hpe, e0]
      simp only [Res.ok_bind]
      rw [e2]
      simp only [Res.ok_bind]
      rw [e6]
      rfl
    · refine ⟨?_, by simp; omega, R, rfl⟩
      simp only; rw [h.1, e4]; simp; omega
    · intro hs; exact noStray_of (by simp; omega) (hn hs)

theorem insert_ok {triv : Bool} {can : Nat → Bool} (hcan : ∀ n, can n = true) {v : Vec α} {l : List α} {f : Nat}
    (h : Rep v l) {p : Nat} (x : α) (hp : p ≤ v.size) (hs : ¬ (v.size = 1 ∧ v.cap = 1)) :
    ∃ v', v.insert triv can (f + 3) p x = .ok v' ∧ v.emplace triv can (f + 3) p x = .ok v' ∧
      Rep v' (l.take p ++ x :: l.drop p) ∧
      v'.cap = (if v.size = v.cap then v.nextCap else v.cap) ∧ (NoStray v → NoStray v') := by
  have hle := h.size_le_cap
  by_cases hf : v.size = v.cap
  · have hne : v.cap ≠ 1 := by omega
    have hg := nextCap_gt hne
    have hc : (v.reserve can v.nextCap).cap = v.nextCap := by rw [reserve_cap _ (hcan _)]; omega
    obtain ⟨v', a, a', b, c, d⟩ := insert_room (triv := triv) (can := can) (f := f)
      (reserve_rep (can := can) h v.nextCap) x (p := p) (by rw [reserve_size]; exact hp) (by rw [hc, reserve_size]; omega)
    refine ⟨v', ?_, ?_, b, ?_, fun hn => d (reserve_noStray h hn _)⟩
    · rw [insert, if_neg (by omega), if_neg (by omega)]; exact a
    · rw [emplace, if_neg (by omega), if_neg (by omega)]; exact a'
    · rw [c, hc, if_pos hf]
  · obtain ⟨v', a, a', b, c, d⟩ := insert_room (triv := triv) (can := can) (f := f + 1) h x hp (by omega)
    exact ⟨v', a, a', b, by rw [c, if_neg hf], d⟩

theorem insert_stuck {triv : Bool} {can : Nat → Bool} {v : Vec α} (hs : v.size = 1) (hc : v.cap = 1) {p : Nat}
    (hp : p ≤ 1) (x : α) (f : Nat) : v.insert triv can f p x = .loop ∧ v.emplace triv can f p x = .loop := by
  induction f with
  | zero => exact ⟨rfl, rfl⟩
  | succ f ih =>
    simp only [insert, emplace, hs, hc, Nat.lt_irrefl, if_false, reserve_fixed hc]
    rw [if_neg (by omega), if_neg (by omega)]
    exact ih

theorem popBack_ok {triv : Bool} {v : Vec α} {l : List α} (h : Rep v l) :
    ∃ v', v.popBack triv = .ok v' ∧ Rep v' l.dropLast ∧ v'.cap = v.cap ∧ (NoStray v → NoStray v') := by
  obtain ⟨h1, h2, R, h3⟩ := h
  rcases List.eq_nil_or_concat l with rfl | ⟨l, x, rfl⟩
  · refine ⟨v, ?_, ⟨h1, h2, R, h3⟩, rfl, id⟩
    simp at h2; simp [popBack, h2]
  · simp only [List.concat_eq_append] at *
    refine ⟨⟨l.map .live ++ .raw :: R, v.cap, v.size - 1⟩, ?_, ⟨?_, ?_, .raw :: R, by simp⟩, rfl, ?_⟩
    · simp only [List.length_append, List.length_singleton] at h2
      rw [popBack, if_pos (by omega), h3]
      simp only [List.map_append, List.append_assoc, List.map_cons, List.map_nil, List.singleton_append]
      rw [Cells.destroy_append (by simp; omega) (by simp)]
      simp
    · simp only; rw [h1, h3]; simp
    · simp [h2]
    · intro hn
      refine noStray_of (by simp [h2]) ?_
      intro c hc
      rcases List.mem_cons.1 hc with rfl | hc
      · rfl
      · apply hn
        rw [h3, h2, show (l ++ [x]).length = ((l ++ [x]).map (Cell.live (α := α))).length by simp, List.drop_left]
        exact hc

theorem clean_ok {triv : Bool} {v : Vec α} {l : List α} (h : Rep v l) :
    ∃ v', v.clean triv = .ok v' ∧ Rep v' [] ∧ v'.cap = v.cap ∧ (NoStray v → NoStray v') := by
  obtain ⟨h1, h2, R, h3⟩ := h
  have e := Cells.destroyRange_append (A := []) (R := R) (M := l.map .live) (i := 0) triv (by simp) rfl
  simp only [List.nil_append, List.length_map] at e
  refine ⟨⟨List.replicate l.length .raw ++ R, v.cap, 0⟩, ?_, ⟨?_, rfl, _, rfl⟩, rfl, ?_⟩
  · rw [clean, h3, h2, e]; rfl
  · simp only; rw [h1, h3]; simp
  · intro hn
    intro c hc
    simp only [List.drop_zero, List.mem_append, List.mem_replicate] at hc
    rcases hc with hc | hc
    · exact hc.2
    · apply hn
      rw [h3, h2, show l.length = (l.map (Cell.live (α := α))).length by simp, List.drop_left]
      exact hc

theorem erase_ok {triv : Bool} {v : Vec α} {l : List α} (h : Rep v l) {p : Nat} (hp : p ≤ v.size) :
    ∃ v', v.erase triv p = .ok v' ∧ Rep v' (l.take p ++ l.drop (p + 1)) ∧ v'.cap = v.cap ∧
      (v.size ≤ p + 1 → NoStray v → NoStray v') := by
  have h2 := h.2.1
  by_cases hpe : p = v.size
  · refine ⟨v, by rw [erase, if_neg (by omega), if_pos hpe], ?_, rfl, fun _ h => h⟩
    rw [List.take_of_length_le (by omega), List.drop_of_length_le (by omega)]
    simpa using h
  by_cases hpl : p + 1 = v.size
  · obtain ⟨v', a, b, c, d⟩ := popBack_ok (triv := triv) h
    refine ⟨v', by rw [erase, if_neg (by omega), if_neg hpe, if_pos hpl]; exact a, ?_, c, fun _ => d⟩
    rw [List.drop_of_length_le (by omega), List.append_nil]
    rw [List.dropLast_eq_take] at b
    rw [show p = l.length - 1 by omega]; exact b
  · obtain ⟨h1, h2, R, h3⟩ := h
    have hlt : p < l.length := by omega
    obtain ⟨C', e1, e2, e3⟩ := Cells.shiftDown_append (A := (l.take p).map .live) (C := [Cell.live l[p]]) (R := R)
      (M := l.drop (p + 1)) (src := p + 1) (dst := p) triv (by simp) (by simp) (by simp; omega) (by simp; omega)
    have hb : v.buf = (l.take p).map .live ++ ([Cell.live l[p]] ++ ((l.drop (p + 1)).map .live ++ R)) := by
      rw [h3]
      have : l = l.take p ++ (l[p] :: l.drop (p + 1)) := by simp
      conv => lhs; rw [this]
      simp only [List.map_append, List.map_cons, List.append_assoc, List.cons_append]
      simp
    refine ⟨⟨(l.take p ++ l.drop (p + 1)).map .live ++ (C' ++ R), v.cap, v.size - 1⟩, ?_, ⟨?_, by simp; omega, _, rfl⟩,
      rfl, fun h' => absurd h' (by omega)⟩
    · rw [erase, if_neg (by omega), if_neg hpe, if_neg hpl, hb]
      rw [List.length_drop, ← h2] at e3
      rw [e3]
      simp
    · simp only [List.length_singleton] at e1
      simp only; rw [h1, hb]; simp; omega

theorem live_map_ne (l : List α) : ∀ c ∈ l.map Cell.live, c ≠ Cell.raw := by
  intro c hc
  obtain ⟨a, _, rfl⟩ := List.mem_map.1 hc
  simp

theorem eraseRange_ok {triv : Bool} {v : Vec α} {l : List α} (h : Rep v l) {b e : Nat} (hbe : b ≤ e) (he : e ≤ v.size)
    (ht : triv = true ∨ b = e ∨ e = v.size) :
    ∃ v', v.eraseRange triv b e = .ok v' ∧ Rep v' (l.take b ++ l.drop e) ∧ v'.cap = v.cap ∧
      (e = v.size ∨ b = e → NoStray v → NoStray v') := by
  have h2 := h.2.1
  by_cases hfull : e - b = v.size
  · obtain ⟨v', a, r, c, d⟩ := clean_ok (triv := triv) h
    refine ⟨v', ?_, ?_, c, fun _ => d⟩
    · rw [eraseRange, if_neg (by omega), if_neg (by omega), if_pos hfull]; exact a
    · rw [List.drop_of_length_le (by omega), show b = 0 by omega]; simpa using r
  by_cases hz : b = e
  · subst hz
    refine ⟨v, ?_, by simpa using h, rfl, fun _ h => h⟩
    rw [eraseRange, if_neg (by omega), if_neg (by omega), if_neg hfull, if_neg (by omega)]
  · obtain ⟨h1, h2, R, h3⟩ := h
    have hmid : ((l.drop b).take (e - b)).length = e - b := by simp; omega
    have hb : v.buf = (l.take b).map .live ++ (((l.drop b).take (e - b)).map .live ++ ((l.drop e).map .live ++ R)) := by
      rw [h3]
      have : l = l.take b ++ ((l.drop b).take (e - b) ++ l.drop e) := by
        rw [show l.drop e = (l.drop b).drop (e - b) by rw [List.drop_drop]; congr 1; omega, List.take_append_drop,
          List.take_append_drop]
      conv => lhs; rw [this]
      simp only [List.map_append, List.append_assoc]
    have d1 := Cells.destroyRange_append (A := (l.take b).map .live) (R := (l.drop e).map .live ++ R)
      (M := ((l.drop b).take (e - b)).map .live) (i := b) triv (Or.inr (live_map_ne _)) (by simp; omega)
    rw [List.length_map, hmid] at d1
    have d2 : ∃ C' : Cells α, C'.length = e - b ∧ (e = v.size → ∀ c ∈ C', c = .raw) ∧ Cells.shiftDown triv
        ((l.take b).map .live ++ (List.replicate (e - b) .raw ++ ((l.drop e).map .live ++ R))) e b (v.size - e)
        = .ok ((l.take b).map .live ++ ((l.drop e).map .live ++ (C' ++ R))) := by
      by_cases hes : e = v.size
      · refine ⟨List.replicate (e - b) .raw, by simp, fun _ c hc => (List.mem_replicate.1 hc).2, ?_⟩
        rw [hes, Nat.sub_self, List.drop_of_length_le (by omega)]
        simp [Cells.shiftDown]
      · obtain ⟨C', e1, _, e3⟩ := Cells.shiftDown_append (A := (l.take b).map .live)
          (C := List.replicate (e - b) Cell.raw) (R := R) (M := l.drop e) (src := e) (dst := b) triv
          (by simp; omega) (Or.inl (by rcases ht with h | h | h; exact h; omega; omega)) (by simp; omega) (by simp; omega)
        refine ⟨C', by simpa using e1, fun h => absurd h hes, ?_⟩
        rw [List.length_drop, ← h2] at e3
        exact e3
    obtain ⟨C', c1, c3, c2⟩ := d2
    refine ⟨⟨(l.take b ++ l.drop e).map .live ++ (C' ++ R), v.cap, v.size - (e - b)⟩, ?_, ⟨?_, by simp; omega, _, rfl⟩, rfl, ?_⟩
    · rw [eraseRange, if_neg (by omega), if_neg (by omega), if_neg hfull, if_pos (by omega), hb, d1]
      simp only [Res.ok_bind]
      rw [c2]
      simp
    · simp only; rw [h1, hb]; simp [c1]; omega
    · intro hh hn
      have hes : e = v.size := by omega
      refine noStray_of (by simp; omega) ?_
      intro c hc
      rcases List.mem_append.1 hc with hc | hc
      · exact c3 hes c hc
      · apply hn
        rw [h3, h2, show l.length = (l.map (Cell.live (α := α))).length by simp, List.drop_left]
        exact hc

/-- For a non-trivial element type, erasing a proper middle range assigns to destroyed objects. -/
theorem eraseRange_ub {v : Vec α} {l : List α} (h : Rep v l) {b e : Nat} (hbe : b < e) (he : e < v.size) :
    v.eraseRange false b e = .ub := by
  obtain ⟨h1, h2, R, h3⟩ := h
  have hmid : ((l.drop b).take (e - b)).length = e - b := by simp; omega
  have hb : v.buf = (l.take b).map .live ++ (((l.drop b).take (e - b)).map .live ++ ((l.drop e).map .live ++ R)) := by
    rw [h3]
    have : l = l.take b ++ ((l.drop b).take (e - b) ++ l.drop e) := by
      rw [show l.drop e = (l.drop b).drop (e - b) by rw [List.drop_drop]; congr 1; omega, List.take_append_drop,
        List.take_append_drop]
    conv => lhs; rw [this]
    simp only [List.map_append, List.append_assoc]
  have d1 := Cells.destroyRange_append (A := (l.take b).map .live) (R := (l.drop e).map .live ++ R)
    (M := ((l.drop b).take (e - b)).map .live) (i := b) false (Or.inr (live_map_ne _)) (by simp; omega)
  rw [List.length_map, hmid] at d1
  rw [eraseRange, if_neg (by omega), if_neg (by omega), if_neg (by omega), if_pos (by omega), hb, d1]
  simp only [Res.ok_bind]
  obtain ⟨n, hn⟩ : ∃ n, v.size - e = n + 1 := ⟨v.size - e - 1, by omega⟩
  obtain ⟨m, hm⟩ : ∃ m, e - b = m + 1 := ⟨e - b - 1, by omega⟩
  obtain ⟨y, ys, hy⟩ : ∃ y ys, l.drop e = y :: ys := by
    cases hl : l.drop e with
    | nil => have := congrArg List.length hl; simp at this; omega
    | cons y ys => exact ⟨y, ys, rfl⟩
  rw [hn, hm, hy]
  simp only [Cells.shiftDown, Cells.moveCell]
  have hg := Cells.get_append (A := (l.take b).map .live ++ List.replicate (m + 1) Cell.raw) (a := y)
    (R := ys.map Cell.live ++ R) (i := e) (by simp; omega)
  rw [show (l.take b).map Cell.live ++ (List.replicate (m + 1) Cell.raw ++ ((y :: ys).map Cell.live ++ R))
    = ((l.take b).map .live ++ List.replicate (m + 1) Cell.raw) ++ Cell.live y :: (ys.map Cell.live ++ R) by simp, hg]
  simp only [Res.ok_bind]
  have ha : Cells.assign false ((((l.take b).map Cell.live ++ List.replicate (m + 1) Cell.raw) ++
      Cell.live y :: (ys.map Cell.live ++ R)).set e .junk) b y = .ub := by
    unfold Cells.assign
    have hlen : ((l.take b).map (Cell.live (α := α))).length = b := by simp; omega
    have : ((((l.take b).map Cell.live ++ List.replicate (m + 1) Cell.raw) ++
      Cell.live y :: (ys.map Cell.live ++ R)).set e .junk)[b]? = some .raw := by
      rw [List.getElem?_set_ne (by omega), List.append_assoc, List.getElem?_append_right (by omega), hlen, Nat.sub_self]
      simp [List.replicate_succ]
    rw [this]; rfl
  rw [ha]
  simp

end Vec
end Flame
