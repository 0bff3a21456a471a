import Verif.Numbers.IntIter
import Verif.Numbers.AsIntegralProps

/-!
# C88, C89: ranges of integers
-/

namespace Flame

open CInt IntIter

namespace IntIterSpec

/-- **Specification.** The integers `b, b + 1, …, b + n - 1`. -/
def upFrom (b : Int) (n : Nat) : List Int := (List.range n).map fun i : Nat => b + (i : Int)

end IntIterSpec

namespace IntIter

theorem common_i32 (t : IT) : t.common .i32 = t.promote := by cases t <;> rfl

theorem inc_fits {t : IT} {x : Int} (hx : t.Fits x) (hx' : t.Fits (x + 1)) : inc t x = .ok (x + 1) := by
  have h1 : t.promote.Fits 1 := by cases t <;> decide
  rw [inc, plus, arithOp, common_i32, cast_of_fits (fits_promote hx), cast_of_fits h1, CInt.arith]
  simp only [Arith.eval]
  by_cases hs : t.promote.signed = true
  · simp [hs, fits_promote hx', Res.bind, cast_of_fits hx']
  · simp [hs, Res.bind, cast_of_fits (fits_promote hx'), cast_of_fits hx']

/-- Incrementing the greatest value. -/
theorem inc_max (t : IT) : inc t t.max = if t = .i32 ∨ t = .i64 then .ub else .ok t.min := by
  cases t <;> decide

theorem upFrom_succ (b : Int) (n : Nat) : IntIterSpec.upFrom b (n + 1) = b :: IntIterSpec.upFrom (b + 1) n := by
  simp only [IntIterSpec.upFrom, List.range_succ_eq_map, List.map_cons, List.map_map]
  congr 1
  · simp
  · apply List.map_congr_left
    intro i _
    simp only [Function.comp_apply, Int.natCast_succ]
    omega

theorem visit_up {t : IT} (n : Nat) : ∀ {x : Int} {f : Nat}, n < f → t.Fits x → t.Fits (x + n) →
    visit t (x + n) f x = .ok (IntIterSpec.upFrom x n) := by
  induction n with
  | zero =>
    intro x f hf _ _
    obtain ⟨f, rfl⟩ : ∃ g, f = g + 1 := ⟨f - 1, by omega⟩
    simp [visit, IntIterSpec.upFrom]
  | succ n ih =>
    intro x f hf hx hx'
    obtain ⟨f, rfl⟩ : ∃ g, f = g + 1 := ⟨f - 1, by omega⟩
    have hx1 : t.Fits (x + 1) := by
      obtain ⟨a, b⟩ := hx
      obtain ⟨c, d⟩ := hx'
      constructor <;> omega
    have e : x + ((n + 1 : Nat) : Int) = x + 1 + n := by omega
    have hne : ¬ x = x + ((n + 1 : Nat) : Int) := by omega
    rw [visit, if_neg hne, inc_fits hx hx1]
    simp only
    rw [e, ih (by omega) hx1 (by rw [← e]; exact hx'), upFrom_succ]

/-- from `x` up over the end of the type -/
theorem visit_wrap {t : IT} (e : Int) (he : t.Fits e) (n : Nat) : ∀ {x : Int} {f : Nat}, e < x → x + n = t.max → t.Fits x →
    (t = .i32 ∨ t = .i64 → n < f → visit t e f x = .ub) ∧
    (¬ (t = .i32 ∨ t = .i64) → ∀ f', f' + (n + 1) = f → ∀ l, visit t e f' t.min = .ok l →
      visit t e f x = .ok (IntIterSpec.upFrom x (n + 1) ++ l)) := by
  induction n with
  | zero =>
    intro x f h1 h2 _
    have hx : x = t.max := by omega
    have hne : ¬ x = e := by omega
    constructor
    · intro ht hf
      obtain ⟨f, rfl⟩ : ∃ g, f = g + 1 := ⟨f - 1, by omega⟩
      rw [visit, if_neg hne, hx, inc_max, if_pos ht]
    · intro ht f' hf l hl
      subst hf
      rw [visit, if_neg hne, hx, inc_max, if_neg ht]
      simp only
      rw [hl, upFrom_succ]
      simp [IntIterSpec.upFrom]
  | succ n ih =>
    intro x f h1 h2 hx
    have hne : ¬ x = e := by omega
    have hx1 : t.Fits (x + 1) := by
      obtain ⟨a, b⟩ := hx
      constructor <;> omega
    constructor
    · intro ht hf
      obtain ⟨f, rfl⟩ : ∃ g, f = g + 1 := ⟨f - 1, by omega⟩
      have := (ih (x := x + 1) (f := f) (by omega) (by omega) hx1).1 ht (by omega)
      rw [visit, if_neg hne, inc_fits hx hx1]
      simp only
      rw [this]
    · intro ht f' hf l hl
      obtain ⟨f, rfl⟩ : ∃ g, f = g + 1 := ⟨f - 1, by omega⟩
      have := (ih (x := x + 1) (f := f) (by omega) (by omega) hx1).2 ht f' (by omega) l hl
      rw [visit, if_neg hne, inc_fits hx hx1]
      simp only
      rw [this, upFrom_succ x]
      rfl

end IntIter

/-- **C88.** A loop over the range from `b` to `e`, `b ≤ e` values of the type, terminates and visits exactly the integers `b … e - 1` in order. -/
theorem C88_range (t : IT) (b e : Int) (hb : t.Fits b) (he : t.Fits e) (h : b ≤ e) (f : Nat) (hf : (e - b).toNat < f) :
    visit t e f b = .ok (IntIterSpec.upFrom b (e - b).toNat) := by
  have := visit_up (t := t) (e - b).toNat (x := b) (f := f) hf hb (by rw [show b + ((e - b).toNat : Int) = e by omega]; exact he)
  rwa [show b + ((e - b).toNat : Int) = e by omega] at this

/-- Each integer between the ends is visited exactly once and nothing else. -/
theorem C88_each_once (b : Int) (n : Nat) : (IntIterSpec.upFrom b n).Nodup ∧ (IntIterSpec.upFrom b n).length = n ∧
    ∀ x, x ∈ IntIterSpec.upFrom b n ↔ b ≤ x ∧ x < b + n := by
  refine ⟨?_, by simp [IntIterSpec.upFrom], ?_⟩
  · rw [IntIterSpec.upFrom, List.Nodup, List.pairwise_map]
    exact List.Pairwise.imp (fun {i j} (h : i ≠ j) => by omega) List.nodup_range
  · intro x
    simp only [IntIterSpec.upFrom, List.mem_map, List.mem_range]
    constructor
    · rintro ⟨i, hi, rfl⟩; omega
    · rintro ⟨h1, h2⟩
      exact ⟨(x - b).toNat, by omega, by omega⟩

/-- **C88, reversed ends.** With `e < b` the loop does not stop at once: for `int` and `long` it runs into undefined overflow, for the other types it visits all
numbers from `b` to the greatest, then from the least to `e - 1`. -/
theorem C88_reversed (t : IT) (b e : Int) (hb : t.Fits b) (he : t.Fits e) (h : e < b) (f : Nat) (hf : t.modulus.toNat < f) :
    visit t e f b = if t = .i32 ∨ t = .i64 then .ub else
      .ok (IntIterSpec.upFrom b (t.max - b + 1).toNat ++ IntIterSpec.upFrom t.min (e - t.min).toNat) := by
  have hm := max_eq t
  have hp := modulus_pos t
  obtain ⟨hb1, hb2⟩ := hb
  obtain ⟨he1, he2⟩ := he
  have hw := visit_wrap (t := t) e ⟨he1, he2⟩ (t.max - b).toNat (x := b) (f := f) h (by omega) ⟨hb1, hb2⟩
  by_cases ht : t = .i32 ∨ t = .i64
  · rw [if_pos ht]
    exact hw.1 ht (by omega)
  · rw [if_neg ht]
    have h2 := C88_range t t.min e ⟨by omega, by omega⟩ ⟨he1, he2⟩ he1 (f - ((t.max - b).toNat + 1)) (by omega)
    have := hw.2 ht (f - ((t.max - b).toNat + 1)) (by omega) _ h2
    rw [this, show (t.max - b + 1).toNat = (t.max - b).toNat + 1 by omega]

/-! ## C89: moving and measuring -/

/-- **C89, what holds.** Moving by an `int` that keeps the number in the type moves by exactly that, and the difference gives it back unless the type is `uint32`
(or the difference of two `uint64`/`int64` numbers is not an `int64`, or of two `int32` not an `int32`). -/
theorem C89_moves_partial (t : IT) (x n : Int) (hx : t.Fits x) (hn : IT.i32.Fits n) (hr : t.Fits (x + n)) :
    plus t .i32 x n = .ok (x + n) ∧ (IT.i32.Fits (-n) → minus t .i32 (x + n) n = .ok x) ∧
    (t ≠ .u32 → diff t (x + n) x = .ok n) := by
  obtain ⟨hn1, hn2⟩ := hn
  simp only [IT.min, IT.max] at hn1 hn2
  refine ⟨?_, ?_, ?_⟩
  · rw [plus, arithOp, common_i32, cast_of_fits (fits_promote hx), CInt.arith]
    simp only [Arith.eval]
    by_cases hs : t.promote.signed = true
    · have hn' : t.promote.Fits n := by
        cases t <;> simp only [IT.promote, IT.signed, IT.Fits, IT.min, IT.max, Bool.false_eq_true] at hs ⊢ <;> omega
      simp [hs, cast_of_fits hn', fits_promote hr, Res.bind, cast_of_fits hr]
    · simp only [hs, if_false, Res.bind, Res.ok.injEq, Bool.false_eq_true]
      rw [cast_promote, cast_eq_of_fits hr]
      have hpt : t.promote = t := by cases t <;> simp [IT.promote, IT.signed] at hs ⊢
      rw [hpt]
      have h := cast_dvd t n
      have : x + t.cast n - (x + n) = -(n - t.cast n) := by omega
      rw [this]
      exact (Int.dvd_neg).mpr h
  · intro hn'
    rw [minus, arithOp, common_i32, cast_of_fits (fits_promote hr), CInt.arith]
    simp only [Arith.eval]
    by_cases hs : t.promote.signed = true
    · have hn'' : t.promote.Fits n := by
        cases t <;> simp only [IT.promote, IT.signed, IT.Fits, IT.min, IT.max, Bool.false_eq_true] at hs ⊢ <;> omega
      have e : x + n - n = x := by omega
      simp [hs, cast_of_fits hn'', e, fits_promote hx, Res.bind, cast_of_fits hx]
    · simp only [hs, if_false, Res.bind, Res.ok.injEq, Bool.false_eq_true]
      rw [cast_promote, cast_eq_of_fits hx]
      have hpt : t.promote = t := by cases t <;> simp [IT.promote, IT.signed] at hs ⊢
      rw [hpt]
      have : x + n - t.cast n - x = n - t.cast n := by omega
      rw [this]
      exact cast_dvd t n
  · intro ht
    have hnl : IT.i64.Fits n := by constructor <;> simp only [IT.min, IT.max] <;> omega
    rw [diff, arithOp, common_self, cast_of_fits (fits_promote hx), cast_of_fits (fits_promote hr),
      show Arith.eval .sub (x + n) x = n by simp only [Arith.eval]; omega, CInt.arith]
    by_cases hs : t.promote.signed = true
    · have hn' : t.promote.Fits n := by
        cases t <;> simp only [IT.promote, IT.signed, IT.Fits, IT.min, IT.max, Bool.false_eq_true] at hs ⊢ <;> omega
      simp [hs, hn', Res.bind, cast_of_fits hnl]
    · have hpt : t.promote = .u64 := by cases t <;> simp [IT.promote, IT.signed] at hs ht ⊢
      simp only [hs, if_false, Res.bind, Res.ok.injEq, Bool.false_eq_true]
      rw [cast_eq_of_fits hnl, hpt]
      have h := cast_dvd .u64 n
      have : IT.u64.cast n - n = -(n - IT.u64.cast n) := by omega
      rw [this]
      exact (Int.dvd_neg).mpr h

/-- **C89 fails.** Of two `uint32` iterators the difference to a later one is 2³² too large. -/
theorem C89_u32_difference (x y : Int) (hx : IT.u32.Fits x) (hy : IT.u32.Fits y) (h : x < y) :
    diff .u32 x y = .ok (x - y + 4294967296) := by
  obtain ⟨h1, h2⟩ := hx
  obtain ⟨h3, h4⟩ := hy
  have hp : IT.u32.promote = .u32 := rfl
  simp only [IT.min, IT.max] at h1 h2 h3 h4
  rw [diff, arithOp, common_self, hp, cast_of_fits ⟨h1, h2⟩, cast_of_fits ⟨h3, h4⟩]
  simp only [CInt.arith, Arith.eval, IT.signed, Res.bind, Bool.false_eq_true, if_false, Res.ok.injEq, IT.cast, IT.min, IT.modulus]
  omega

/-- **C89 fails.** Two `int32` (or `int64`) iterators further apart than the type's greatest value have no difference: overflow is undefined. -/
theorem C89_signed_difference_ub (t : IT) (ht : t = .i32 ∨ t = .i64) (x y : Int) (hx : t.Fits x) (hy : t.Fits y) (h : ¬ t.Fits (x - y)) :
    diff t x y = .ub := by
  have hp : t.promote = t := by rcases ht with rfl | rfl <;> rfl
  have hs : t.signed = true := by rcases ht with rfl | rfl <;> rfl
  rw [diff, arithOp, common_self, hp, cast_of_fits hx, cast_of_fits hy]
  simp [CInt.arith, Arith.eval, hs, h, Res.bind]

/-- **C89, differences exactly**, for every type and all positions: right for the types promoted to `int`; for `int32` and `int64` right or
undefined; modulo 2³² for `uint32`; for `uint64` the signed distance, modulo 2⁶⁴. -/
theorem C89_difference_exact (t : IT) (x y : Int) (hx : t.Fits x) (hy : t.Fits y) :
    diff t x y = match t with
      | .i32 | .i64 => if t.Fits (x - y) then .ok (x - y) else .ub
      | .u32 => .ok ((x - y) % 4294967296)
      | .u64 => .ok (IT.i64.cast (x - y))
      | _ => .ok (x - y) := by
  obtain ⟨h1, h2⟩ := hx
  obtain ⟨h3, h4⟩ := hy
  rw [diff, arithOp, common_self, cast_of_fits (fits_promote ⟨h1, h2⟩), cast_of_fits (fits_promote ⟨h3, h4⟩)]
  have ht : ∀ u : IT, u.signed = true → u.Fits (x - y) → -9223372036854775808 ≤ x - y ∧ x - y ≤ 9223372036854775807 →
      ((CInt.arith u (Arith.eval .sub x y)).bind fun r => .ok (IT.i64.cast r)) = .ok (x - y) := by
    intro u hs hu hb
    have e : CInt.arith u (Arith.eval .sub x y) = .ok (x - y) := by simp [CInt.arith, Arith.eval, hs, hu]
    rw [e]
    exact congrArg Res.ok (cast_of_fits hb)
  have hf : ∀ u : IT, u.signed = true → ¬ u.Fits (x - y) → ((CInt.arith u (Arith.eval .sub x y)).bind fun r => .ok (IT.i64.cast r)) = .ub := by
    intro u hs hu
    simp [CInt.arith, Arith.eval, hs, hu, Res.bind]
  cases t <;> simp only [IT.min, IT.max] at h1 h2 h3 h4 <;> simp only [IT.promote]
  case i32 =>
    by_cases h : IT.i32.Fits (x - y)
    · rw [if_pos h, ht _ rfl h ⟨by omega, by omega⟩]
    · rw [if_neg h, hf _ rfl h]
  case i64 =>
    by_cases h : IT.i64.Fits (x - y)
    · rw [if_pos h, ht _ rfl h h]
    · rw [if_neg h, hf _ rfl h]
  case u32 => simp only [CInt.arith, Arith.eval, IT.signed, Bool.false_eq_true, if_false, Res.bind, Res.ok.injEq, IT.cast, IT.min, IT.modulus]; omega
  case u64 => simp only [CInt.arith, Arith.eval, IT.signed, Bool.false_eq_true, if_false, Res.bind, Res.ok.injEq, IT.cast, IT.min, IT.modulus]; omega
  all_goals exact ht _ rfl (by simp only [IT.Fits, IT.min, IT.max]; omega) ⟨by omega, by omega⟩

/-! ## Concrete cases -/

example : visit .u64 5 10 2 = .ok [2, 3, 4] := by decide
example : visit .i8 3 300 (-2) = .ok [-2, -1, 0, 1, 2] := by decide
example : visit .i32 2147483646 10 2147483647 = .ub := by decide
example : diff .u32 3 5 = .ok 4294967294 ∧ diff .u64 3 5 = .ok (-2) ∧ diff .u8 3 5 = .ok (-2) := by decide
example : diff .i32 2147483647 (-1) = .ub := by decide

namespace Flame
open CInt IntIter
example := C88_range .i8 (-2) 3 (by decide) (by decide) (by decide) 10 (by decide)
example := C88_reversed .u8 5 3 (by decide) (by decide) (by decide) 300 (by decide)
example := C89_moves_partial .u8 5 (-3) (by decide) (by decide) (by decide)
example := C89_u32_difference 3 5 (by decide) (by decide) (by decide)
example := C89_signed_difference_ub .i32 (.inl rfl) 2147483647 (-1) (by decide) (by decide) (by decide)
end Flame

end Flame
