import Verif.Array.Reverse
import Verif.Array.Lemmas

/-!
# C128: backward traversal delivers the elements in reverse
-/

namespace Flame
open Reverse
variable {α : Type u}

theorem reverse_walk (n : Nat) (rd : Nat → Res α) (l : List α) (h : ∀ i (hi : i < l.length), rd i = .ok l[i]) :
    walk false n rd (l.length + 1) ((l.length : Int) - 1) (-1) = .ok l.reverse := by
  induction l using snocInduction with
  | nil => simp [walk]
  | snoc l x ih =>
    have hx : rd l.length = .ok x := by
      have := h l.length (by simp)
      simpa using this
    have ih := ih fun i hi => by
      have := h i (by simp; omega)
      rwa [List.getElem_append_left hi] at this
    have e : ((l ++ [x]).length : Int) - 1 = (l.length : Int) := by simp
    rw [e, show (l ++ [x]).length + 1 = (l.length + 1) + 1 by simp, walk, if_neg (by omega), if_neg (by omega)]
    simp [hx, form, ih]

theorem backward_ok (n : Nat) (rd : Nat → Res α) (l : List α) (h : ∀ i (hi : i < l.length), rd i = .ok l[i]) :
    backward false n rd l.length = .ok l.reverse := by
  simp [backward, form, reverse_walk n rd l h]

theorem vec_rep_get {v : Vec α} {l : List α} (h : Vec.Rep v l) (i : Nat) (hi : i < l.length) : v.buf.get i = .ok l[i] := by
  obtain ⟨_, _, R, e⟩ := h
  have : v.buf[i]? = some (.live l[i]) := by rw [e, List.getElem?_append_left (by simpa using hi)]; simp [hi]
  simp [Cells.get, this]

/-- **C128 (partial)**: with pointers taken as addresses, a range-for over `rbegin() .. rend()` of an `Array` holding `l` delivers exactly
the reverse of `l`.  Missing: `rend()` forms a pointer before the storage (`C128_before_first_ub`). -/
theorem C128_array_partial {s : SVec α} {l : List α} (h : SVec.Rep s l) : ofArray false s = .ok l.reverse := by
  have := backward_ok s.buf.length s.buf.get l (vec_rep_get h)
  rw [ofArray, h.size_eq]; exact this

/-- **C128 (partial)**: likewise for a `Vector` and the container inside a `HybridVector`. -/
theorem C128_vector_partial {v : Vec α} {l : List α} (h : Vec.Rep v l) : ofVector false v = .ok l.reverse := by
  rw [ofVector, h.2.1]; exact backward_ok _ _ l (vec_rep_get h)

example : SVec.Rep (⟨[.live 4, .live 9, .raw], 2⟩ : SVec Nat) [4, 9] ∧
    ofArray false (⟨[.live 4, .live 9, .raw], 2⟩ : SVec Nat) = .ok [9, 4] := ⟨⟨rfl, rfl, [.raw], rfl⟩, by decide⟩

theorem rdRange_get {b : Raw α} {n i : Nat} {l : List α} (h : b.rdRange i n = .ok l) :
    n = l.length ∧ ∀ j (hj : j < l.length), b.rd (i + j) = .ok l[j] := by
  induction n generalizing i l with
  | zero => simp only [Raw.rdRange, Res.ok.injEq] at h; subst h; simp
  | succ n ih =>
    simp only [Raw.rdRange] at h
    split at h <;> try contradiction
    rename_i a ha
    split at h <;> try contradiction
    rename_i r hr
    simp only [Res.ok.injEq] at h; subst h
    obtain ⟨h1, h2⟩ := ih hr
    refine ⟨by simp [h1], fun j hj => ?_⟩
    cases j with
    | zero => exact ha
    | succ j => rw [show i + (j + 1) = i + 1 + j by omega]; exact h2 j (by simpa using hj)

/-- **C128 (partial)**: likewise for a string with the characters `l`. -/
theorem C128_string_partial {α : Type} {s : Str α} {l : List α} (h : s.chars = .ok l) : ofString false s = .ok l.reverse := by
  obtain ⟨h1, h2⟩ := rdRange_get h
  rw [ofString, h1]; exact backward_ok _ _ l fun i hi => by simpa using h2 i hi

example : (⟨[some 'a', some 'b', some '\x00'], 3, 2⟩ : Str Char).chars = .ok ['a', 'b'] ∧
    ofString false (⟨[some 'a', some 'b', some '\x00'], 3, 2⟩ : Str Char) = .ok ['b', 'a'] := by decide

theorem backward_strict (n : Nat) (rd : Nat → Res α) (k : Nat) : backward true n rd k = .ub := by
  unfold backward
  have : form true n (-1) = .ub := by simp [form]
  rw [this]
  split <;> simp_all

/-- **C128 violated** under the language's own rules: `rend()` is the pointer before the first element, so no backward traversal of any
of these containers, empty ones included, has defined behaviour. -/
theorem C128_before_first_ub (s : SVec α) (v : Vec α) {β : Type} (t : Str β) :
    ofArray true s = .ub ∧ ofVector true v = .ub ∧ ofString true t = .ub :=
  ⟨backward_strict _ _ _, backward_strict _ _ _, backward_strict _ _ _⟩

theorem strict_walk (n : Nat) (rd : Nat → Res α) (l : List α) (hl : l.length ≤ n)
    (hr : ∀ i (hi : i < l.length), rd i = .ok l[i]) (j d : Nat) (hd : j + d < l.length) :
    walk true n rd (d + 1) ((j + d : Nat) : Int) j = .ok ((l.take (j + d + 1)).drop (j + 1)).reverse := by
  induction d with
  | zero => simp [walk]
  | succ d ih =>
    have hne : ((j + (d + 1) : Nat) : Int) ≠ j := by omega
    have hp : ¬ ((j + (d + 1) : Nat) : Int) < 0 := by omega
    have hf : form true n (((j + (d + 1) : Nat) : Int) - 1) = .ok ((j + d : Nat) : Int) := by
      rw [show ((j + (d + 1) : Nat) : Int) - 1 = ((j + d : Nat) : Int) by omega]
      unfold form
      rw [if_neg (by omega)]
    rw [walk, if_neg hne, if_neg hp, Int.toNat_natCast, hr _ hd]
    simp only [hf, ih (by omega)]
    congr 1
    rw [show j + (d + 1) + 1 = (j + d + 1) + 1 by omega, List.take_add_one (i := j + d + 1)]
    have e : l[j + d + 1]? = some l[j + (d + 1)] := by
      rw [show j + d + 1 = j + (d + 1) by omega]; exact List.getElem?_eq_getElem hd
    rw [e, List.drop_append_of_le_length (by rw [List.length_take]; omega)]
    simp

/-- **C128**: by the language's own rules a backward walk that stops at an element, and so never forms the pointer before the first, is
defined: from element `k` down to, but not including, element `j` it delivers the elements `k, ..., j + 1`. -/
theorem C128_until {v : Vec α} {l : List α} (h : Vec.Rep v l) {j k : Nat} (hj : j ≤ k) (hk : k < l.length) :
    walk true v.buf.length v.buf.get (k - j + 1) k j = .ok ((l.take (k + 1)).drop (j + 1)).reverse := by
  have hl : l.length ≤ v.buf.length := by
    obtain ⟨-, -, t, ht⟩ := h
    rw [ht]; simp
  have := strict_walk v.buf.length v.buf.get l hl (vec_rep_get h) j (k - j) (by omega)
  rwa [show j + (k - j) = k by omega] at this

example : walk true 3 (Vec.buf ⟨[.live 4, .live 9, .live 2], 3, 3⟩ : Cells Nat).get 3 2 0 = .ok [2, 9] := by decide

/-- **C128**: reading backward leaves no element out even when the walk is started in the middle: from the element `k` it delivers the
elements `k, k-1, ..., 0`. -/
theorem C128_from {v : Vec α} {l : List α} (h : Vec.Rep v l) {k : Nat} (hk : k < l.length) :
    walk false v.buf.length v.buf.get (k + 2) k (-1) = .ok (l.take (k + 1)).reverse := by
  have hl : (l.take (k + 1)).length = k + 1 := by simp; omega
  have := reverse_walk v.buf.length v.buf.get (l.take (k + 1)) fun i hi => by
    rw [vec_rep_get h i (by omega)]; simp
  rw [hl, show ((k + 1 : Nat) : Int) - 1 = k by omega] at this
  exact this

example : Vec.Rep (⟨[.live 4, .live 9, .live 2], 3, 3⟩ : Vec Nat) [4, 9, 2] ∧
    walk false 3 (Cells.get [.live 4, .live 9, .live 2]) 3 1 (-1) = .ok [9, 4] := ⟨⟨rfl, rfl, [], rfl⟩, by decide⟩

namespace Flame
example := C128_array_partial (s := (⟨[.live 4, .live 9, .raw], 2⟩ : SVec Nat)) (l := [4, 9]) ⟨rfl, rfl, [.raw], rfl⟩
end Flame

end Flame
