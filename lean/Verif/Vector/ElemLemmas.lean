import Verif.Vector.ElemModel
import Verif.String.Props

/-! Lemmas for `Verif/Vector/ElemProps.lean`. -/

namespace Flame.ElemVec
open Flame

variable {E : Type} {c : Cls E} {Good : E → Prop} {can : Nat → Bool}

/-- A class whose move operations hand over the object's state and leave a default one behind. -/
structure Steals (c : Cls E) (Good : E → Prop) : Prop where
  dflt : Good c.dflt
  move : ∀ s, c.move s = (s, c.dflt)
  massign : ∀ d s, Good d → c.massign d s = .ok (s, c.dflt)

/-- `v` holds the objects `xs`, in this order, in an allocation as large as the vector believes. -/
def Has (v : EVec E) (xs : List E) : Prop :=
  ∃ rest, v.mem = xs.map some ++ rest ∧ v.mem.length = v.cap ∧ v.size = xs.length

theorem obj_mid (A B : Slots E) (x : E) (i : Nat) (h : i = A.length) : obj (A ++ some x :: B) i = .ok x := by
  subst h; simp [obj]

theorem put_mid (A B : Slots E) (o : Option E) (x : E) (i : Nat) (h : i = A.length) :
    put (A ++ o :: B) i x = .ok (A ++ some x :: B) := by
  subst h; simp [put]

theorem slide_up (h : Steals c Good) (P R S : Slots E) (x d : E) (hd : Good d) :
    slide c (P ++ some x :: (R ++ some d :: S)) (P.length + 1 + R.length) P.length =
      .ok (P ++ some c.dflt :: (R ++ some x :: S)) := by
  have e : ∀ y w : Option E, P ++ y :: (R ++ w :: S) = (P ++ y :: R) ++ w :: S := by intro y w; simp
  unfold slide
  rw [obj_mid P _ x _ rfl, e, obj_mid (P ++ some x :: R) S d _ (by simp; omega)]
  simp only [Res.ok_bind, h.massign d x hd]
  rw [put_mid (P ++ some x :: R) S _ x _ (by simp; omega)]
  simp only [Res.ok_bind]
  rw [← e, put_mid P _ _ _ _ rfl]

theorem slide_down (h : Steals c Good) (P S : Slots E) (x d : E) (hd : Good d) :
    slide c (P ++ some d :: some x :: S) P.length (P.length + 1) = .ok (P ++ some x :: some c.dflt :: S) := by
  have e : ∀ y w : Option E, P ++ y :: w :: S = (P ++ [y]) ++ w :: S := by intro y w; simp
  unfold slide
  rw [obj_mid P _ d _ rfl, e, obj_mid (P ++ [some d]) S x _ (by simp)]
  simp only [Res.ok_bind, h.massign d x hd]
  rw [← e, put_mid P _ _ x _ rfl]
  simp only [Res.ok_bind]
  rw [e, put_mid (P ++ [some x]) S _ _ _ (by simp), ← e]

theorem shiftUp_ok (h : Steals c Good) (P : Slots E) (g : Nat) : ∀ (n : Nat) (ys : List E) (S : Slots E), ys.length = n →
    shiftUp c P.length (g + 1) n (P ++ (ys.map some ++ (List.replicate (g + 1) (some c.dflt) ++ S))) =
      .ok (P ++ (List.replicate (g + 1) (some c.dflt) ++ (ys.map some ++ S))) := by
  intro n
  induction n with
  | zero => intro ys S hl; have := List.eq_nil_of_length_eq_zero hl; subst this; simp [shiftUp]
  | succ n ih =>
    intro ys S hl
    rcases List.eq_nil_or_concat ys with rfl | ⟨zs, x, rfl⟩
    · simp at hl
    · have hz : zs.length = n := by simpa using hl
      have e1 : P ++ ((zs ++ [x]).map some ++ (List.replicate (g + 1) (some c.dflt) ++ S)) =
          (P ++ zs.map some) ++ some x :: (List.replicate g (some c.dflt) ++ some c.dflt :: S) := by
        rw [List.replicate_succ']; simp
      have e2 : (P ++ zs.map some) ++ some c.dflt :: (List.replicate g (some c.dflt) ++ some x :: S) =
          P ++ (zs.map some ++ (List.replicate (g + 1) (some c.dflt) ++ some x :: S)) := by
        rw [List.replicate_succ]; simp
      have hs := slide_up h (P ++ zs.map some) (List.replicate g (some c.dflt)) S x c.dflt h.dflt
      rw [e2] at hs
      rw [List.concat_eq_append] at *
      rw [shiftUp, e1]
      have ea : P.length + n + (g + 1) = (P ++ zs.map some).length + 1 + (List.replicate g (some c.dflt)).length := by
        simp [hz]; omega
      have eb : P.length + n = (P ++ zs.map some).length := by simp [hz]
      rw [ea, eb, hs, Res.ok_bind, ih zs _ hz]
      simp

theorem shiftDown_ok (h : Steals c Good) : ∀ (ys : List E) (P S : Slots E) (d : E), Good d → (∀ y ∈ ys, Good y) →
    shiftDown c ys.length (P.length + 1) P.length (P ++ some d :: (ys.map some ++ S)) =
      .ok (P ++ (ys.map some ++ some (if ys = [] then d else c.dflt) :: S)) := by
  intro ys
  induction ys with
  | nil => intro P S d _ _; simp [shiftDown]
  | cons y ys ih =>
    intro P S d hd hy
    have hs := slide_down h P (ys.map some ++ S) y d hd
    simp only [List.length_cons, List.map_cons, List.cons_append, shiftDown]
    rw [hs, Res.ok_bind]
    have := ih (P ++ [some y]) S c.dflt h.dflt (fun w hw => hy w (by simp [hw]))
    simp only [List.length_append, List.length_cons, List.length_nil, List.append_assoc, List.cons_append, List.nil_append] at this
    rw [this]
    by_cases e : ys = [] <;> simp [e]

theorem destroy_ok : ∀ (ys : List E) (P S : Slots E),
    destroy ys.length P.length (P ++ (ys.map some ++ S)) = .ok (P ++ (List.replicate ys.length none ++ S)) := by
  intro ys
  induction ys with
  | nil => intro P S; simp [destroy]
  | cons y ys ih =>
    intro P S
    simp only [List.length_cons, List.map_cons, List.cons_append, destroy]
    rw [obj_mid P _ y _ rfl, Res.ok_bind]
    have := ih (P ++ [none]) S
    simp only [List.length_append, List.length_cons, List.length_nil, List.append_assoc, List.cons_append, List.nil_append] at this
    have e : (P ++ some y :: (ys.map some ++ S)).set P.length none = P ++ none :: (ys.map some ++ S) := by simp
    rw [e, this]
    simp [List.replicate_succ]

theorem fill_ok : ∀ (n : Nat) (P R S : Slots E), R.length = n →
    fill c n P.length (P ++ (R ++ S)) = .ok (P ++ (List.replicate n (some c.dflt) ++ S)) := by
  intro n
  induction n with
  | zero => intro P R S hr; have := List.eq_nil_of_length_eq_zero hr; subst this; simp [fill]
  | succ n ih =>
    intro P R S hr
    cases R with
    | nil => simp at hr
    | cons o R =>
      simp only [List.cons_append, fill]
      rw [put_mid P _ o _ _ rfl, Res.ok_bind]
      have := ih (P ++ [some c.dflt]) R S (by simpa using hr)
      simp only [List.length_append, List.length_cons, List.length_nil, List.append_assoc, List.cons_append, List.nil_append] at this
      rw [this]
      simp [List.replicate_succ]

theorem elems_ok : ∀ (ys : List E) (P S : Slots E), elems (P ++ (ys.map some ++ S)) P.length ys.length = .ok ys := by
  intro ys
  induction ys with
  | nil => intro P S; simp [elems]
  | cons y ys ih =>
    intro P S
    simp only [List.length_cons, List.map_cons, List.cons_append, elems]
    rw [obj_mid P _ y _ rfl, Res.ok_bind]
    have := ih (P ++ [some y]) S
    simp only [List.length_append, List.length_cons, List.length_nil, List.append_assoc, List.cons_append, List.nil_append] at this
    rw [this]; rfl

theorem Has.elems {v : EVec E} {xs : List E} (h : Has v xs) : elems v.mem 0 v.size = .ok xs := by
  obtain ⟨rest, h1, _, h3⟩ := h
  have := elems_ok xs [] rest
  rw [h1, h3]; simpa using this

theorem Has.le {v : EVec E} {xs : List E} (h : Has v xs) : v.size ≤ v.cap := by
  obtain ⟨rest, h1, h2, h3⟩ := h
  rw [← h2, h1, h3]; simp

/-- Room, as two lists: the part before `pos`, the part after it, and the cells behind the last. -/
theorem Has.split {v : EVec E} {xs : List E} (h : Has v xs) (pos n : Nat) (hp : pos ≤ xs.length) (hr : xs.length + n ≤ v.cap) :
    ∃ R S, v.mem = (xs.take pos).map some ++ ((xs.drop pos).map some ++ (R ++ S)) ∧ R.length = n ∧ v.size = xs.length ∧
      xs.length + n + S.length = v.cap := by
  obtain ⟨rest, h1, h2, h3⟩ := h
  have hl : xs.length + rest.length = v.cap := by rw [← h2, h1]; simp
  refine ⟨rest.take n, rest.drop n, ?_, by rw [List.length_take]; omega, h3, by rw [List.length_drop]; omega⟩
  rw [h1, List.take_append_drop, ← List.append_assoc, ← List.map_append, List.take_append_drop]

theorem Has.reserve {v : EVec E} {xs : List E} (h : Has v xs) (n : Nat) : Has (reserve can v n) xs := by
  unfold ElemVec.reserve
  split
  · split
    · obtain ⟨rest, h1, h2, h3⟩ := h
      refine ⟨rest ++ List.replicate (n - v.mem.length) none, ?_, ?_, h3⟩
      · show v.mem ++ _ = _
        rw [h1]; simp
      · show (v.mem ++ _).length = n
        rw [List.length_append, List.length_replicate]; omega
    · exact h
  · exact h

theorem open_ok (h : Steals c Good) {v : EVec E} {xs : List E} (hv : Has v xs) (pos g : Nat) (hp : pos ≤ xs.length)
    (hr : xs.length + (g + 1) ≤ v.cap) :
    ∃ S, (do let b ← fill c (g + 1) v.size v.mem
             shiftUp c pos (g + 1) (v.size - pos) b) =
        .ok ((xs.take pos).map some ++ (List.replicate (g + 1) (some c.dflt) ++ ((xs.drop pos).map some ++ S))) ∧
      xs.length + (g + 1) + S.length = v.cap := by
  obtain ⟨R, S, h1, h2, h3, h4⟩ := hv.split pos (g + 1) hp hr
  refine ⟨S, ?_, h4⟩
  have e1 : v.mem = xs.map some ++ (R ++ S) := by
    rw [h1, ← List.append_assoc, ← List.map_append, List.take_append_drop]
  have hf := fill_ok (c := c) (g + 1) (xs.map some) R S h2
  rw [e1, h3]
  rw [List.length_map] at hf
  rw [hf, Res.ok_bind]
  have e2 : xs.map some ++ (List.replicate (g + 1) (some c.dflt) ++ S) =
      (xs.take pos).map some ++ ((xs.drop pos).map some ++ (List.replicate (g + 1) (some c.dflt) ++ S)) := by
    rw [← List.append_assoc (List.map some (xs.take pos)), ← List.map_append, List.take_append_drop]
  have hs := shiftUp_ok h ((xs.take pos).map some) g (xs.length - pos) (xs.drop pos) S (by simp)
  rw [List.length_map, List.length_take, Nat.min_eq_left hp] at hs
  rw [e2, hs]

theorem has_of {mem : Slots E} {cap size : Nat} {xs : List E} {S : Slots E} (h1 : mem = xs.map some ++ S) (h2 : xs.length + S.length = cap)
    (h3 : size = xs.length) : Has ⟨mem, cap, size⟩ xs := ⟨S, h1, by rw [h1]; simp [h2], h3⟩

theorem pushBack_ok {v : EVec E} {xs : List E} (hv : Has v xs) {x y : E} (hx : c.copy x = .ok y) (hr : v.size < v.cap) (f : Nat) :
    ∃ v', pushBack c can (f + 1) v x = .ok v' ∧ Has v' (xs ++ [y]) ∧ v'.cap = v.cap := by
  have hvs : v.size = xs.length := hv.choose_spec.2.2
  obtain ⟨R, S, h1, h2, h3, h4⟩ := hv.split xs.length 1 (Nat.le_refl _) (by omega)
  obtain ⟨o, rfl⟩ := List.length_eq_one_iff.1 h2
  have e : v.mem = xs.map some ++ o :: S := by rw [h1]; simp
  refine ⟨⟨xs.map some ++ some y :: S, v.cap, v.size + 1⟩, ?_, has_of (S := S) (by simp) (by simp; omega) (by simp [h3]), rfl⟩
  rw [pushBack, if_pos (by omega), hx, Res.ok_bind, e, put_mid _ S o y _ (by simp [h3])]
  rfl

theorem pushBackMove_ok (h : Steals c Good) {v : EVec E} {xs : List E} (hv : Has v xs) (x : E) (hr : v.size < v.cap) (f : Nat) :
    ∃ v', pushBackMove c can (f + 1) v x = .ok (v', c.dflt) ∧ Has v' (xs ++ [x]) ∧ v'.cap = v.cap := by
  have hvs : v.size = xs.length := hv.choose_spec.2.2
  obtain ⟨R, S, h1, h2, h3, h4⟩ := hv.split xs.length 1 (Nat.le_refl _) (by omega)
  obtain ⟨o, rfl⟩ := List.length_eq_one_iff.1 h2
  have e : v.mem = xs.map some ++ o :: S := by rw [h1]; simp
  refine ⟨⟨xs.map some ++ some x :: S, v.cap, v.size + 1⟩, ?_, has_of (S := S) (by simp) (by simp; omega) (by simp [h3]), rfl⟩
  rw [pushBackMove, if_pos (by omega), h.move, e, put_mid _ S o x _ (by simp [h3])]
  rfl

/-- There is a free cell, or the next capacity is larger and memory for it can be had. -/
def Grows (can : Nat → Bool) (v : EVec E) : Prop := v.size < v.cap ∨ (v.cap ≠ 1 ∧ can (nextCap v) = true)

theorem Grows.next {v : EVec E} {xs : List E} (hv : Has v xs) (h : Grows can v) (hf : ¬ v.size < v.cap) :
    (ElemVec.reserve can v (nextCap v)).size < (ElemVec.reserve can v (nextCap v)).cap := by
  have hle := hv.le
  rcases h with h | ⟨h1, h2⟩
  · exact absurd h hf
  · have hn : v.cap < nextCap v := by unfold nextCap; split <;> omega
    unfold ElemVec.reserve
    rw [if_pos hn, if_pos h2]
    show v.size < nextCap v
    omega

theorem takeDropInsert (xs : List E) (i : Nat) (x : E) (h : i ≤ xs.length) : xs.take i ++ x :: xs.drop i = xs.insertIdx i x := by
  induction i generalizing xs with
  | zero => cases xs <;> rfl
  | succ i ih =>
    cases xs with
    | nil => simp at h
    | cons y xs => simp only [List.take_succ_cons, List.drop_succ_cons, List.insertIdx_succ_cons, List.cons_append]
                   rw [ih xs (by simpa using h)]

end Flame.ElemVec
