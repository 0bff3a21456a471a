import Verif.Vector.ElemGeneric

/-! # C195: sizing and assigning a vector whose elements bring their own operations -/

namespace Flame.ElemVec
open Flame

variable {E : Type} {c : Cls E} {can : Nat → Bool}

/-- **C195, every class: `resize`.**  A size that is not larger changes nothing; a larger one below the capacity appends default constructed
objects; one that equals the capacity changes nothing; one above the capacity is tried again with the next capacity. -/
theorem C195_resize_generic {v : EVec E} {xs : List E} (hv : Has v xs) (n f : Nat) :
    (n ≤ xs.length → resize c can (f + 1) v n = .ok v) ∧
    (xs.length < n → n < v.cap → ∃ v', resize c can (f + 1) v n = .ok v' ∧ Has v' (xs ++ List.replicate (n - xs.length) c.dflt) ∧ v'.cap = v.cap ∧
      elems v'.mem 0 v'.size = .ok (xs ++ List.replicate (n - xs.length) c.dflt)) ∧
    (xs.length < n → n = v.cap → resize c can (f + 1) v n = .ok v) ∧
    (v.cap < n → resize c can (f + 1) v n = resize c can f (reserve can v (if v.cap = 0 then 8 else v.cap * 3 / 2)) n) := by
  have hs : v.size = xs.length := hv.choose_spec.2.2
  have hle := hv.le
  refine ⟨fun h => ?_, fun h1 h2 => ?_, fun h1 h2 => ?_, fun h => ?_⟩
  · rw [resize, if_neg (by omega)]
  · obtain ⟨R, S, m, l, d, q⟩ := hv.split xs.length (n - xs.length) (Nat.le_refl _) (by omega)
    have e : v.mem = xs.map some ++ (R ++ S) := by rw [m]; simp
    have hf := fill_ok (c := c) (n - xs.length) (xs.map some) R S l
    rw [List.length_map] at hf
    have hcl : v.cap = xs.length + ((n - xs.length) + S.length) := by
      obtain ⟨rest, m', l', _⟩ := hv
      rw [← l', e]; simp [l]
    have hh : Has ⟨xs.map some ++ (List.replicate (n - xs.length) (some c.dflt) ++ S), v.cap, n⟩ (xs ++ List.replicate (n - xs.length) c.dflt) :=
      has_of (S := S) (by simp) (by simp; omega) (by simp; omega)
    refine ⟨_, ?_, hh, rfl, hh.elems⟩
    rw [resize, if_pos (by omega), if_pos (by omega), hs, e, hf]
    rfl
  · rw [resize, if_pos (by omega), if_neg (by omega), if_neg (by omega)]
  · rw [resize, if_pos (by omega), if_neg (by omega), if_pos h, nextCap]
    by_cases h0 : v.cap = 0
    · rw [if_neg (by omega), if_pos h0]
    · rw [if_pos h0, if_neg h0]

example := C195_resize_generic (c := numCls) (can := fun _ => true) (v := ⟨[some 7, none, none, none], 4, 1⟩) (xs := [7]) ⟨[none, none, none], rfl, rfl, rfl⟩ 3 0

/-- **C195, every class: sized construction.**  `Vector(n)` holds `n * 3 / 2` default constructed objects. -/
theorem C195_sized (n : Nat) : Has (sized c n) (List.replicate (n * 3 / 2) c.dflt) ∧
    elems (sized c n).mem 0 (sized c n).size = .ok (List.replicate (n * 3 / 2) c.dflt) := by
  have h : Has (sized c n) (List.replicate (n * 3 / 2) c.dflt) := ⟨[], by simp [sized], by simp [sized], by simp [sized]⟩
  exact ⟨h, h.elems⟩

example := C195_sized (c := numCls) 5

/-- **C195, every class: assignment from another vector type.**  With enough capacity it is defined only for an empty source, and then empties
the vector; a source with elements is assigned to objects that were just destroyed. -/
theorem C195_assignOther_exact {v : EVec E} {xs : List E} (hv : Has v xs) (ys : List E) (f : Nat) (hc : ys.length ≤ v.cap) :
    (ys = [] → ∃ v', assignOther c can (f + 1) v ys = .ok v' ∧ elems v'.mem 0 v'.size = .ok []) ∧
    (ys ≠ [] → xs ≠ [] → assignOther c can (f + 1) v ys = .ub) := by
  obtain ⟨rest, m, l, d⟩ := hv
  have hd := destroy_ok xs [] rest
  simp only [List.nil_append, List.length_nil] at hd
  refine ⟨fun h => ?_, fun h hx => ?_⟩
  · subst h
    refine ⟨⟨List.replicate xs.length none ++ rest, v.cap, 0⟩, ?_, rfl⟩
    rw [assignOther, if_neg (by simp), clean, d, m, hd]
    rfl
  · obtain ⟨y, ys, rfl⟩ := List.exists_cons_of_ne_nil h
    obtain ⟨x, xs, rfl⟩ := List.exists_cons_of_ne_nil hx
    rw [assignOther, if_neg (by omega), clean, d, m, hd]
    simp [assignAll, obj, List.replicate_succ]

example := C195_assignOther_exact (c := numCls) (can := fun _ => true) nums_has [1, 2] 0 (by decide)

/-- **C195, assigning a longer vector of another type.**  If the target has storage, but less than the source has elements, the call never returns, whatever the
allocator answers: it asks for the difference as a capacity, so the capacity never reaches the size of the source.  Without storage it is undefined: the elements
are copy-assigned to objects that do not exist. -/
theorem C195_assignOther_grow (v : EVec E) (ys : List E) (f : Nat) :
    (0 < v.cap → v.cap < ys.length → assignOther c can f v ys = .loop) ∧
    (v = ⟨[], 0, 0⟩ → ys ≠ [] → can ys.length = true → assignOther c can (f + 2) v ys = .ub) := by
  constructor
  · induction f generalizing v with
    | zero => intros; rfl
    | succ f ih =>
      intro h0 h1
      rw [assignOther, if_pos h1]
      refine ih _ ?_ ?_ <;> unfold reserve <;> split <;> (try split) <;> (try simp only []) <;> omega
  · rintro rfl hy hcan
    obtain ⟨y, ys, rfl⟩ := List.exists_cons_of_ne_nil hy
    have hcan : can (ys.length + 1) = true := by simpa using hcan
    rw [assignOther, if_pos (by simp), assignOther]
    simp [reserve, hcan, clean, destroy, assignAll, obj, List.replicate_succ]

example := C195_assignOther_grow (c := numCls) (can := fun _ => true) ⟨[some 4, none], 2, 1⟩ [1, 2, 3] 5
example := C195_assignOther_grow (c := numCls) (can := fun _ => true) ⟨[], 0, 0⟩ [1, 2, 3] 5

variable {α : Type} [DecidableEq α] {z : α}

omit [DecidableEq α] in
theorem Holds.more {v : EVec (Str α)} {ps : List (Str α × List α)} {n : Nat} (h3 : ∀ p ∈ ps, Str.Rep z p.1 p.2)
    (h : Has v (ps.map (·.1) ++ List.replicate n Str.empty)) : Holds z v (ps.map (·.2) ++ List.replicate n []) := by
  refine ⟨ps ++ List.replicate n (Str.empty, []), by simpa using h, by simp, fun p hp => ?_⟩
  rcases List.mem_append.1 hp with hp | hp
  · exact h3 p hp
  · have := List.eq_of_mem_replicate hp
    subst this; exact Or.inr ⟨rfl, rfl⟩

/-- **C195, resizing strings (exactly).**  `resize(n)` of a vector of strings ends, and either appends empty strings up to the size `n`, or, if the
capacities it grows through hit `n` itself, leaves the texts as they were. -/
theorem C195_resize_exact {v : EVec (Str α)} {ls : List (List α)} (hv : Holds z v ls) (hc : v.cap ≠ 1) (hcan : ∀ n, can n = true) (n k : Nat) :
    ∃ v', resize (strCls z k) can (n + 1) v n = .ok v' ∧
      ((v'.cap ≠ n ∨ n ≤ ls.length) ∧ texts v' = .ok (ls ++ List.replicate (n - ls.length) []) ∨ (v'.cap = n ∧ ls.length < n ∧ texts v' = .ok ls)) := by
  have gen : ∀ (f : Nat) (w : EVec (Str α)), Holds z w ls → w.cap ≠ 1 → n < w.cap + f + 1 →
      ∃ v', resize (strCls z k) can (f + 1) w n = .ok v' ∧
        ((v'.cap ≠ n ∨ n ≤ ls.length) ∧ texts v' = .ok (ls ++ List.replicate (n - ls.length) []) ∨ (v'.cap = n ∧ ls.length < n ∧ texts v' = .ok ls)) := by
    intro f
    induction f with
    | zero =>
      intro w hw _ hf
      have ht := hw.texts
      obtain ⟨ps, h1, rfl, h3⟩ := hw
      obtain ⟨a, b, d, _⟩ := C195_resize_generic (c := strCls z k) (can := can) h1 n 0
      simp only [List.length_map] at a b d ⊢
      rcases Nat.lt_trichotomy n w.cap with hlt | heq | hgt
      · by_cases hl : n ≤ ps.length
        · exact ⟨w, a hl, Or.inl ⟨Or.inr hl, by rw [Nat.sub_eq_zero_of_le hl]; simpa using ht⟩⟩
        · obtain ⟨v', e, g, q, _⟩ := b (by omega) hlt
          exact ⟨v', e, Or.inl ⟨Or.inl (by omega), (Holds.more (z := z) h3 g).texts⟩⟩
      · by_cases hl : n ≤ ps.length
        · exact ⟨w, a hl, Or.inl ⟨Or.inr hl, by rw [Nat.sub_eq_zero_of_le hl]; simpa using ht⟩⟩
        · exact ⟨w, d (by omega) heq, Or.inr ⟨heq.symm, by omega, ht⟩⟩
      · omega
    | succ f ih =>
      intro w hw hc hf
      by_cases hgt : w.cap < n
      · have hsz := hw.size
        have hw' := Holds.reserve (can := can) hw (nextCap w)
        have hcap : (reserve can w (nextCap w)).cap = nextCap w ∧ w.cap < nextCap w := by
          have hn : w.cap < nextCap w := by unfold nextCap; split <;> omega
          refine ⟨?_, hn⟩
          unfold reserve
          rw [if_pos hn, if_pos (hcan _)]
        obtain ⟨v', e, g⟩ := ih _ hw' (reserve_cap w hc) (by omega)
        refine ⟨v', ?_, g⟩
        rw [resize, if_pos (by omega), if_neg (by omega), if_pos hgt]
        exact e
      · have ht := hw.texts
        obtain ⟨ps, h1, rfl, h3⟩ := hw
        obtain ⟨a, b, d, _⟩ := C195_resize_generic (c := strCls z k) (can := can) h1 n (f + 1)
        simp only [List.length_map] at a b d ⊢
        by_cases hl : n ≤ ps.length
        · exact ⟨w, a hl, Or.inl ⟨Or.inr hl, by rw [Nat.sub_eq_zero_of_le hl]; simpa using ht⟩⟩
        · by_cases heq : n = w.cap
          · exact ⟨w, d (by omega) heq, Or.inr ⟨heq.symm, by omega, ht⟩⟩
          · obtain ⟨v', e, g, q, _⟩ := b (by omega) (by omega)
            exact ⟨v', e, Or.inl ⟨Or.inl (by omega), (Holds.more (z := z) h3 g).texts⟩⟩
  exact gen n v hv hc (by omega)

example := C195_resize_exact (can := fun _ => true) (two_holds 1) (by decide) (fun _ => rfl) 4 0

omit [DecidableEq α] in
/-- **C195, resizing (violated).**  A default constructed vector of strings still has no string after `resize(8)`. -/
theorem C195_resize_violated (hcan : can 8 = true) (f k : Nat) :
    ∃ v', resize (strCls z k) can (f + 2) (EVec.empty : EVec (Str α)) 8 = .ok v' ∧ texts v' = .ok [] := by
  refine ⟨⟨List.replicate 8 none, 8, 0⟩, ?_, rfl⟩
  rw [resize]
  simp only [EVec.empty, nextCap, reserve]
  simp [hcan, resize]

example := C195_resize_violated (z := 0) (can := fun n => n == 8) rfl 0 0

end Flame.ElemVec
