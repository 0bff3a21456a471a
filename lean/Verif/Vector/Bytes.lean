import Verif.Vector.Lemmas

/-!
# C171: capacities whose size in bytes does not fit a machine word

`Vector::reserve` (Vector.hpp 568-604) and `Vector(size)` (439-444) as they are on a 64-bit machine: the element count is multiplied by
`sizeof(Type)` in 64 bits (ArrayAllocator.hpp 100-137), and `malloc`/`realloc` get the remainder.  The allocation really obtained is `v.buf`;
`v.cap` is what `capacity()` reports.

`can n` says whether a block of `n` bytes can be had; a block of 0 bytes can always be had (glibc: `malloc(0)` is not null, `realloc(p, 0)` of a
block releases it and returns null).
-/

namespace Flame
namespace VecBytes
variable {α : Type u}

/-- A vector and whether `head` is not null. -/
structure BVec (α : Type u) where
  v : Vec α
  held : Bool

/-- `SizeType(sizeof(Type) * count)`. -/
def bytes (sz n : Nat) : Nat := sz * n % 2 ^ 64

/-- Elements that fit into the block asked for. -/
def fits (sz n : Nat) : Nat := bytes sz n / sz

/-- Vector.hpp 568-604 over ArrayAllocator.hpp 118-137 and MallocAllocator.hpp 57-72.  `realloc(head, 0)` releases the block and returns null; the
fallback (576-594) then obtains a block of 0 bytes and releases the already released `head` (590): undefined.  Otherwise the fallback is reached only
without memory and fails again. -/
def reserve (sz : Nat) (can : Nat → Bool) (w : BVec α) (n : Nat) : Res (BVec α) :=
  if w.v.cap < n then
    if bytes sz n = 0 then
      if w.held then .ub else .ok ⟨{ w.v with buf := [], cap := n }, true⟩
    else if can (bytes sz n) then
      .ok ⟨{ w.v with buf := w.v.buf.take (fits sz n) ++ List.replicate (fits sz n - w.v.buf.length) .raw, cap := n }, true⟩
    else .ok w
  else .ok w

/-- Vector.hpp 439-444: `Vector(size)`: the capacity is computed in 64 bits, then `construct` (ArrayAllocator.hpp 98-116) makes as many elements; the block is
assumed to be had (see C164 for when it is not). -/
def ofSize (sz n : Nat) : Res (BVec α) :=
  let c := n * 3 % 2 ^ 64 / 2
  if c ≤ fits sz c then .ok ⟨⟨List.replicate c .junk, c, c⟩, true⟩ else .ub

theorem bytes_small {sz n : Nat} (h : sz * n < 2 ^ 64) : bytes sz n = sz * n := Nat.mod_eq_of_lt h

theorem fits_small {sz n : Nat} (hz : 0 < sz) (h : sz * n < 2 ^ 64) : fits sz n = n := by
  unfold fits; rw [bytes_small h]; exact Nat.mul_div_cancel_left n hz

theorem fits_big {sz n : Nat} (hz : 0 < sz) (h : 2 ^ 64 ≤ sz * n) : fits sz n < n := by
  unfold fits
  have h1 : bytes sz n < 2 ^ 64 := Nat.mod_lt _ (by decide)
  exact (Nat.div_lt_iff_lt_mul hz).2 (by rw [Nat.mul_comm]; omega)

/-- **C171 where the size fits.**  As long as the number of bytes fits a machine word, `reserve` is the `reserve` of the element model: it gives the capacity asked
for or leaves the vector as it was. -/
theorem C171_reserve_partial {sz : Nat} (hz : 0 < sz) {can : Nat → Bool} {w : BVec α} {n : Nat} (h : sz * n < 2 ^ 64) :
    ∃ w', reserve sz can w n = .ok w' ∧ w'.v = w.v.reserve (fun k => can (sz * k)) n := by
  unfold reserve Vec.reserve
  by_cases hc : w.v.cap < n
  · have hb : bytes sz n ≠ 0 := by
      rw [bytes_small h]
      have : 0 < sz * n := Nat.mul_pos hz (by omega)
      omega
    rw [if_pos hc, if_neg hb, if_pos hc, bytes_small h, fits_small hz h]
    by_cases hm : can (sz * n) = true
    · rw [if_pos hm, if_pos hm]; exact ⟨_, rfl, rfl⟩
    · rw [if_neg hm, if_neg hm]; exact ⟨_, rfl, rfl⟩
  · rw [if_neg hc, if_neg hc]; exact ⟨_, rfl, rfl⟩

example : 8 * 1000 < 2 ^ 64 := by decide

/-- **C171 violated.**  A capacity whose bytes do not fit is granted all the same: afterwards `capacity()` reports the number asked for, but the block has
room for fewer elements. -/
theorem C171_reserve_violated {sz : Nat} (hz : 0 < sz) {can : Nat → Bool} {w : BVec α} {n : Nat} (hc : w.v.cap < n) (h : 2 ^ 64 ≤ sz * n)
    (hm : can (bytes sz n) = true) (hb : bytes sz n ≠ 0 ∨ w.held = false) :
    ∃ w', reserve sz can w n = .ok w' ∧ w'.v.cap = n ∧ w'.v.size = w.v.size ∧ w'.v.buf.length = fits sz n ∧ fits sz n < n := by
  have hf := fits_big hz h
  unfold reserve
  rw [if_pos hc]
  by_cases h0 : bytes sz n = 0
  · have hh : w.held = false := by rcases hb with hb | hb; exact absurd h0 hb; exact hb
    rw [if_pos h0, hh]
    exact ⟨_, rfl, rfl, rfl, by simp [fits, h0], hf⟩
  · rw [if_neg h0, if_pos hm]
    exact ⟨_, rfl, rfl, rfl, by simp; omega, hf⟩

/-- What that leads to: appending reaches the end of the real block while the vector believes to have room, and writes behind it. -/
theorem C171_append_ub {sz : Nat} (hz : 0 < sz) {can : Nat → Bool} {w : BVec α} {n : Nat} (hs : w.v.size = 0) (hc : w.v.cap < n)
    (h : 2 ^ 64 ≤ sz * n) (hm : can (bytes sz n) = true) (hb : bytes sz n ≠ 0 ∨ w.held = false) (xs : List α) (hx : fits sz n < xs.length) (f : Nat) :
    ∃ w', reserve sz can w n = .ok w' ∧ w'.v.cap = n ∧ w'.v.pushBackList (fun k => can (sz * k)) (f + 1) xs = .ub := by
  obtain ⟨w', e, h1, h2, h3, h4⟩ := C171_reserve_violated hz hc h hm hb
  refine ⟨w', e, h1, ?_⟩
  rw [hs] at h2
  have key : ∀ (xs : List α) (u : Vec α), u.cap = n → u.buf.length = fits sz n → u.size ≤ fits sz n → fits sz n - u.size < xs.length →
      u.pushBackList (fun k => can (sz * k)) (f + 1) xs = .ub := by
    intro xs
    induction xs with
    | nil => intro u _ _ _ hl; simp at hl
    | cons x xs ih =>
      intro u c1 c2 c3 hl
      simp only [Vec.pushBackList, Vec.pushBack]
      rw [if_pos (by omega)]
      by_cases hr : u.size < fits sz n
      · simp only [Cells.construct, c2, if_pos hr, Res.ok_bind]
        exact ih _ c1 (by simp [c2]) (by show u.size + 1 ≤ _; omega) (by simp only [List.length_cons] at hl; show fits sz n - (u.size + 1) < _; omega)
      · simp only [Cells.construct, c2, if_neg hr]
        rfl
  exact key xs w'.v h1 h3 (by omega) (by omega)

example : bytes 8 (2 ^ 61 + 1) = 8 ∧ fits 8 (2 ^ 61 + 1) = 1 ∧ 2 ^ 64 ≤ 8 * (2 ^ 61 + 1) := by decide

/-- If the bytes come out as exactly 0 while the vector has a block, the block is released twice or its elements are moved out of released memory. -/
theorem C171_zero_ub {sz : Nat} {can : Nat → Bool} {w : BVec α} {n : Nat} (hc : w.v.cap < n) (h : bytes sz n = 0) (hh : w.held = true) :
    reserve sz can w n = .ub := by
  unfold reserve; rw [if_pos hc, if_pos h, if_pos hh]

example : bytes 8 (2 ^ 61) = 0 := by decide

/-- So it goes on any second growth of this kind: once a growth has been granted, whatever its size, a later one whose bytes come out as 0 is undefined. -/
theorem C171_second_ub {sz : Nat} {can : Nat → Bool} {w w' : BVec α} {n k : Nat} (hc : w.v.cap < n) (e : reserve sz can w n = .ok w')
    (hg : w'.v.cap = n) (hk : n < k) (h : bytes sz k = 0) : reserve sz can w' k = .ub := by
  refine C171_zero_ub (by omega) h ?_
  unfold reserve at e
  rw [if_pos hc] at e
  split at e
  · split at e
    · cases e
    · cases e; rfl
  · split at e
    · cases e; rfl
    · cases e; omega

-- a vector of 8-byte elements: `reserve(10)` and then `reserve(2^61)`
example : (⟨Vec.empty, false⟩ : BVec Nat).v.cap < 10 ∧ bytes 8 (2 ^ 61) = 0 ∧
    (match reserve 8 (fun _ => true) (⟨Vec.empty, false⟩ : BVec Nat) 10 with
      | .ok w' => w'.v.cap == 10
      | _ => false) = true := by decide +kernel

/-- A vector that holds more than the shrunken block loses the rest: those elements can no longer be read, though the size is unchanged. -/
theorem C171_elements_lost {sz : Nat} (hz : 0 < sz) {can : Nat → Bool} {w : BVec α} {l : List α} (hr : Vec.Rep w.v l) {n : Nat} (hc : w.v.cap < n)
    (h : 2 ^ 64 ≤ sz * n) (h0 : bytes sz n ≠ 0) (hm : can (bytes sz n) = true) (hlt : fits sz n < l.length) :
    ∃ w', reserve sz can w n = .ok w' ∧ w'.v.size = l.length ∧ w'.v.toList = .ub ∧
      ∀ i, fits sz n ≤ i → w'.v.buf.get i = .ub := by
  obtain ⟨w', e, h1, h2, h3, _⟩ := C171_reserve_violated hz hc h hm (Or.inl h0)
  have hg : ∀ i, fits sz n ≤ i → w'.v.buf.get i = .ub := by
    intro i hi
    unfold Cells.get
    rw [List.getElem?_eq_none (by omega)]
  refine ⟨w', e, by rw [h2, hr.2.1], ?_, hg⟩
  have : ∀ (k i : Nat), i ≤ fits sz n → fits sz n < i + k → w'.v.buf.getRange i k = .ub := by
    intro k
    induction k with
    | zero => intro i h1 h3; omega
    | succ k ih =>
      intro i hi1 hi2
      simp only [Cells.getRange]
      by_cases hi : i = fits sz n
      · rw [hg i (by omega)]; rfl
      · cases hh : w'.v.buf.get i with
        | ok a => simp only [Res.ok_bind]; rw [ih (i + 1) (by omega) (by omega)]; rfl
        | ub => rfl
        | loop => unfold Cells.get at hh; split at hh <;> simp at hh
  unfold Vec.toList
  exact this _ 0 (by omega) (by rw [h2, hr.2.1]; omega)

example : Vec.Rep (⟨[.live 5, .live 6], 2, 2⟩ : Vec Nat) [5, 6] ∧ fits 8 (2 ^ 61 + 1) < [5, 6].length := ⟨⟨rfl, rfl, [], rfl⟩, by decide⟩

/-- **C171 for `Vector(size)`, exactly.**  The number of elements made is `3 n / 2` as long as `3 n` fits a machine word, and what is left of it modulo 2⁶⁴ otherwise; it
then is less than the number asked for. -/
theorem C171_ctor_exact {sz n : Nat} (hz : 0 < sz) (hsz : sz * (n * 3 % 2 ^ 64 / 2) < 2 ^ 64) :
    (ofSize sz n : Res (BVec α)) = .ok ⟨⟨List.replicate (n * 3 % 2 ^ 64 / 2) .junk, n * 3 % 2 ^ 64 / 2, n * 3 % 2 ^ 64 / 2⟩, true⟩ := by
  unfold ofSize
  simp only
  rw [if_pos (by rw [fits_small hz hsz]; exact Nat.le_refl _)]

theorem C171_ctor_violated {sz n : Nat} (hz : 0 < sz) (hn : n < 2 ^ 64) (h : 2 ^ 64 ≤ n * 3)
    (hsz : sz * (n * 3 % 2 ^ 64 / 2) < 2 ^ 64) :
    ∃ w : BVec α, ofSize sz n = .ok w ∧ w.v.size < n ∧ w.v.size = w.v.cap := by
  refine ⟨_, C171_ctor_exact hz hsz, ?_, rfl⟩
  show n * 3 % 2 ^ 64 / 2 < n
  have : n * 3 % 2 ^ 64 < n * 3 := by
    have := Nat.mod_lt (n * 3) (by decide : 0 < 2 ^ 64); omega
  have h2 : n * 3 % 2 ^ 64 = n * 3 - 2 ^ 64 * (n * 3 / 2 ^ 64) := by
    have := Nat.div_add_mod (n * 3) (2 ^ 64); omega
  omega

/-- Asked for 6148914691236517206 elements it makes one. -/
example : 6148914691236517206 * 3 % 2 ^ 64 / 2 = 1 ∧ 6148914691236517206 < 2 ^ 64 := by decide
example : (ofSize 8 6148914691236517206 : Res (BVec Nat)) = .ok ⟨⟨[.junk], 1, 1⟩, true⟩ := by rfl

/-- When the number of elements itself is in range but its bytes are not, the constructor makes objects behind the block. -/
theorem C171_ctor_ub {sz n : Nat} (hz : 0 < sz) (h : 2 ^ 64 ≤ sz * (n * 3 % 2 ^ 64 / 2)) : (ofSize sz n : Res (BVec α)) = .ub := by
  unfold ofSize
  simp only
  rw [if_neg (by have := fits_big hz h; omega)]

example : 2 ^ 64 ≤ 8 * (2 ^ 61 * 3 % 2 ^ 64 / 2) := by decide

namespace Flame
open VecBytes
example := C171_reserve_violated (sz := 8) (by decide) (can := fun _ => true) (w := (⟨Vec.empty, false⟩ : BVec Nat)) (n := 2 ^ 61 + 1) (by decide) (by decide)
  rfl (.inr rfl)
example := C171_ctor_exact (α := Nat) (sz := 8) (n := 10) (by decide) (by decide)
end Flame

end VecBytes
end Flame
