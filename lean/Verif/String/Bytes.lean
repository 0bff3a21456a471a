import Verif.String.Lemmas

/-!
# C185: capacities of a string whose size in bytes does not fit a machine word

`BasicString::resize` and `reserve` (String.hpp 534-562) as they are on a 64-bit machine: `capacity() + addSize` is computed in 64 bits, and the number of
characters is multiplied by `sizeof(Type)` in 64 bits (ArrayAllocator.hpp 118-137) before `malloc` or `realloc` gets it.  The block really obtained is
`s.str.buf`; `s.str.cap` is what `capacity()` reports.

`can n` says whether a block of `n` bytes can be had; a block of 0 bytes can always be had (glibc: `malloc(0)` is not null, `realloc(p, 0)` of a
block releases it and returns null).
-/

namespace Flame.StrBytes

/-- A string and whether `head` is not null. -/
structure BStr (α : Type) where
  str : Str α
  held : Bool
  deriving Repr, DecidableEq

/-- `SizeType(sizeof(Type) * count)` (ArrayAllocator.hpp 122, 133). -/
def bytes (sz n : Nat) : Nat := sz * n % 2 ^ 64

/-- Characters that fit into the block asked for. -/
def fits (sz n : Nat) : Nat := bytes sz n / sz

variable {α : Type} [DecidableEq α] (z : α) (sz : Nat) (can : Nat → Bool)

/-- String.hpp 534-556 over ArrayAllocator.hpp 118-137 and MallocAllocator.hpp 57-72.  The result of `reallocateArray` is not tested: null becomes the new `head`
(542-546), and `tail` lies `length()` behind it. -/
def resize (s : BStr α) (n : Nat) : Res (BStr α) :=
  if s.held then
    if s.str.cap < n then
      if bytes sz n = 0 then .ok ⟨⟨[], n, s.str.len⟩, false⟩
      else if can (bytes sz n) then .ok ⟨⟨s.str.buf.grow (fits sz n), n, s.str.len⟩, true⟩
      else .ok ⟨⟨[], n, s.str.len⟩, false⟩
    else .ok s
  else
    -- 552-553: the terminator is written through the result without a test
    if bytes sz n = 0 ∨ can (bytes sz n) = true then do
      let b ← Raw.wr (List.replicate (fits sz n) none) 0 z
      .ok ⟨⟨b, n, 0⟩, true⟩
    else .ub

/-- String.hpp 558-562: `capacity() + addSize` in 64 bits. -/
def reserve (s : BStr α) (n : Nat) : Res (BStr α) := resize z sz can s ((s.str.cap + n) % 2 ^ 64)

/-- String.hpp 431-441 and 239-244: whether `clean()`, and so the destructor, has defined behaviour. -/
def clean (s : BStr α) : Res Unit := do
  let _ ← s.str.clean z
  .ok ()

theorem bytes_small {sz n : Nat} (h : sz * n < 2 ^ 64) : bytes sz n = sz * n := Nat.mod_eq_of_lt h

theorem fits_small {sz n : Nat} (hz : 0 < sz) (h : sz * n < 2 ^ 64) : fits sz n = n := by
  unfold fits; rw [bytes_small h]; exact Nat.mul_div_cancel_left n hz

theorem fits_big {sz n : Nat} (hz : 0 < sz) (h : 2 ^ 64 ≤ sz * n) : fits sz n < n := by
  unfold fits
  have h1 : bytes sz n < 2 ^ 64 := Nat.mod_lt _ (by decide)
  exact (Nat.div_lt_iff_lt_mul hz).2 (by rw [Nat.mul_comm]; omega)

theorem grow_length {α : Type} (b : Raw α) (n : Nat) : (b.grow n).length = n := by
  unfold Raw.grow; simp only [List.length_append, List.length_take, List.length_replicate]; omega

end Flame.StrBytes
