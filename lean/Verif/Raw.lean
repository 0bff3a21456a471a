import Verif.Basic

/-!
# Storage of trivially copyable elements

An allocation of `n` trivially copyable elements (characters, bytes, integers) is a list of `n` cells, `none` when the
element has an indeterminate value.  Reading an indeterminate value or any access outside the allocation is `ub`.
Destroying such an element has no effect.
-/

namespace Flame

/-- An allocation of trivially copyable elements. -/
abbrev Raw (α : Type u) := List (Option α)

namespace Raw
variable {α : Type u}

/-- `*(p + i)` as a value. -/
def rd (b : Raw α) (i : Nat) : Res α :=
  match b[i]? with
  | some (some a) => .ok a
  | _ => .ub

/-- `*(p + i) = a`. -/
def wr (b : Raw α) (i : Nat) (a : α) : Res (Raw α) :=
  if i < b.length then .ok (b.set i (some a)) else .ub

/-- `for k: *(p + i + k) = xs[k]`. -/
def wrList (b : Raw α) (i : Nat) : List α → Res (Raw α)
  | [] => .ok b
  | x :: xs => do
    let b ← wr b i x
    wrList b (i + 1) xs

/-- Reading `n` elements from index `i`. -/
def rdRange (b : Raw α) (i : Nat) : Nat → Res (List α)
  | 0 => .ok []
  | n + 1 =>
    match rd b i with
    | .ok a => match rdRange b (i + 1) n with
      | .ok r => .ok (a :: r)
      | .ub => .ub
      | .loop => .loop
    | .ub => .ub
    | .loop => .loop

/-- `for k = 0 .. n-1: *(dst+k) = *(src+k)`. -/
def copyDown (b : Raw α) (src dst : Nat) : Nat → Res (Raw α)
  | 0 => .ok b
  | n + 1 =>
    match rd b src with
    | .ok a => match wr b dst a with
      | .ok b => copyDown b (src + 1) (dst + 1) n
      | .ub => .ub
      | .loop => .loop
    | .ub => .ub
    | .loop => .loop

/-- `for k = n-1 .. 0: *(pos+k+d) = *(pos+k)`. -/
def copyUp (b : Raw α) (pos d : Nat) : Nat → Res (Raw α)
  | 0 => .ok b
  | n + 1 =>
    match rd b (pos + n) with
    | .ok a => match wr b (pos + n + d) a with
      | .ok b => copyUp b pos d n
      | .ub => .ub
      | .loop => .loop
    | .ub => .ub
    | .loop => .loop

/-- `realloc` to `n` elements: the common prefix is kept. -/
def grow (b : Raw α) (n : Nat) : Raw α := b.take n ++ List.replicate (n - b.length) none

theorem rd_ok {b : Raw α} {i : Nat} {a : α} (h : b[i]? = some (some a)) : rd b i = .ok a := by simp [rd, h]

theorem wr_ok {b : Raw α} {i : Nat} (a : α) (h : i < b.length) : wr b i a = .ok (b.set i (some a)) := by simp [wr, h]

theorem wr_ub {b : Raw α} {i : Nat} (a : α) (h : b.length ≤ i) : wr b i a = .ub := by
  simp [wr, Nat.not_lt.mpr h]

theorem wrList_ok {b : Raw α} {i : Nat} {xs : List α} (h : i + xs.length ≤ b.length) :
    ∃ b', wrList b i xs = .ok b' ∧ b'.length = b.length ∧
      ∀ j, b'[j]? = if i ≤ j ∧ j < i + xs.length then some (xs[j - i]?) else b[j]? := by
  induction xs generalizing b i with
  | nil => exact ⟨b, rfl, rfl, fun j => by simp; omega⟩
  | cons x xs ih =>
    simp only [List.length_cons] at h
    obtain ⟨b', h1, h2, h3⟩ := ih (b := b.set i (some x)) (i := i + 1) (by simp; omega)
    refine ⟨b', by simp [wrList, wr_ok x (show i < b.length by omega), h1], by simpa using h2, fun j => ?_⟩
    rw [h3 j]
    simp only [List.length_cons]
    by_cases hj : i = j
    · subst hj
      rw [if_neg (by omega), if_pos (by omega)]
      simp [List.getElem?_set, show i < b.length by omega]
    · by_cases hj2 : i + 1 ≤ j ∧ j < i + 1 + xs.length
      · rw [if_pos hj2, if_pos (by omega)]
        obtain ⟨k, hk⟩ : ∃ k, j - i = k + 1 := ⟨j - i - 1, by omega⟩
        rw [hk, show j - (i + 1) = k by omega]; simp
      · rw [if_neg hj2, if_neg (by omega)]
        simp [List.getElem?_set, hj]

theorem wrList_ub {b : Raw α} {i : Nat} {xs : List α} (h : b.length < i + xs.length) (hx : xs ≠ []) :
    wrList b i xs = .ub := by
  induction xs generalizing b i with
  | nil => exact absurd rfl hx
  | cons x xs ih =>
    simp only [List.length_cons] at h
    by_cases hi : i < b.length
    · simp only [wrList, wr_ok x hi, Res.ok_bind]
      apply ih
      · simp; omega
      · intro he; subst he; simp at h; omega
    · simp [wrList, wr_ub x (by omega : b.length ≤ i)]

theorem rdRange_ok {b : Raw α} {i : Nat} {xs : List α} (h : ∀ k, k < xs.length → b[i + k]? = some (xs[k]?)) :
    rdRange b i xs.length = .ok xs := by
  induction xs generalizing i with
  | nil => rfl
  | cons x xs ih =>
    have h0 := h 0 (by simp)
    simp only [Nat.add_zero, List.getElem?_cons_zero] at h0
    have := ih (i := i + 1) (fun k hk => by
      have := h (k + 1) (by simpa using hk)
      rw [show i + 1 + k = i + (k + 1) by omega]; simpa using this)
    simp [rdRange, rd_ok h0, this]

theorem copyDown_ok {b : Raw α} {src dst n : Nat} (hlt : dst < src)
    (hinit : ∀ j, src ≤ j → j < src + n → ∃ a, b[j]? = some (some a)) :
    ∃ b', copyDown b src dst n = .ok b' ∧ b'.length = b.length ∧
      ∀ j, b'[j]? = if dst ≤ j ∧ j < dst + n then b[j - dst + src]? else b[j]? := by
  induction n generalizing b src dst with
  | zero => exact ⟨b, rfl, rfl, fun j => by simp; omega⟩
  | succ n ih =>
    obtain ⟨a, ha⟩ := hinit src (Nat.le_refl _) (by omega)
    have hl : src < b.length := by
      rcases Nat.lt_or_ge src b.length with h | h
      · exact h
      · rw [List.getElem?_eq_none h] at ha; cases ha
    obtain ⟨b', h1, h2, h3⟩ := ih (b := b.set dst (some a)) (src := src + 1) (dst := dst + 1) (by omega) (fun j hj1 hj2 => by
      obtain ⟨a', ha'⟩ := hinit j (by omega) (by omega)
      exact ⟨a', by simp [List.getElem?_set, show dst ≠ j by omega, ha']⟩)
    refine ⟨b', by simp [copyDown, rd_ok ha, wr_ok a (show dst < b.length by omega), h1], by simpa using h2, fun j => ?_⟩
    rw [h3 j]
    by_cases hj : dst = j
    · subst hj
      rw [if_neg (by omega), if_pos (by omega)]
      simp [List.getElem?_set, show dst < b.length by omega, ha]
    · by_cases hj2 : dst + 1 ≤ j ∧ j < dst + 1 + n
      · rw [if_pos hj2, if_pos (by omega)]
        rw [show j - (dst + 1) + (src + 1) = j - dst + src by omega]
        simp [List.getElem?_set, show dst ≠ j - dst + src by omega]
      · rw [if_neg hj2, if_neg (by omega)]
        simp [List.getElem?_set, hj]

theorem copyUp_ok {b : Raw α} {pos d n : Nat} (hd : 0 < d) (hlen : pos + n + d ≤ b.length)
    (hinit : ∀ j, pos ≤ j → j < pos + n → ∃ a, b[j]? = some (some a)) :
    ∃ b', copyUp b pos d n = .ok b' ∧ b'.length = b.length ∧
      ∀ j, b'[j]? = if pos + d ≤ j ∧ j < pos + d + n then b[j - d]? else b[j]? := by
  induction n generalizing b with
  | zero => exact ⟨b, rfl, rfl, fun j => by simp; omega⟩
  | succ n ih =>
    obtain ⟨a, ha⟩ := hinit (pos + n) (by omega) (by omega)
    obtain ⟨b', h1, h2, h3⟩ := ih (b := b.set (pos + n + d) (some a)) (by simp; omega) (fun j hj1 hj2 => by
      obtain ⟨a', ha'⟩ := hinit j (by omega) (by omega)
      exact ⟨a', by simp [List.getElem?_set, show pos + n + d ≠ j by omega, ha']⟩)
    refine ⟨b', by simp [copyUp, rd_ok ha, wr_ok a (show pos + n + d < b.length by omega), h1], by simpa using h2, fun j => ?_⟩
    rw [h3 j]
    by_cases hj : pos + n + d = j
    · subst hj
      rw [if_neg (by omega), if_pos (by omega)]
      simp [List.getElem?_set, show pos + n + d < b.length by omega, ha]
    · by_cases hj2 : pos + d ≤ j ∧ j < pos + d + n
      · rw [if_pos hj2, if_pos (by omega)]
        simp [List.getElem?_set, show pos + n + d ≠ j - d by omega]
      · rw [if_neg hj2, if_neg (by omega)]
        simp [List.getElem?_set, hj]

theorem grow_length {b : Raw α} {n : Nat} (h : b.length ≤ n) : (grow b n).length = n := by
  simp [grow, List.length_take]; omega

theorem grow_get {b : Raw α} {n j : Nat} (h : b.length ≤ n) (hj : j < b.length) : (grow b n)[j]? = b[j]? := by
  rw [grow, List.getElem?_append_left (by simp; omega), List.getElem?_take_of_lt (by omega)]

end Raw
end Flame
