import Verif.Basic

/-!
# C125: the iterators of a circular vector (include/FlameIDE/Templates/CircularVector.hpp 374-436)

Positions are numbers, `b` and `e` those of the storage's begin and end.  The only constructor that gives an iterator its pointers (374-380)
initialises `Traits`, which is no base of the class, and does not compile; the postfix operators need it.  What follows is about the prefix
operators on an iterator with pointers.
-/

namespace Flame.CVecIt

/-- CircularVector.hpp: `wrappedIterator`, `actualArrayBegin`, `actualArrayEnd`. -/
structure It where
  p : Nat
  b : Nat
  e : Nat
  deriving DecidableEq, Repr

/-- 382-394: `++`; `p + 1` is undefined beyond the end of the storage. -/
def It.next (i : It) : Res It :=
  if i.p < i.e then
    if i.p + 1 = i.e then .ok { i with p := i.b } else .ok { i with p := i.p + 1 }
  else .ub

/-- 405-417: `--`; `e - 1` is undefined for storage without elements, `p - 1` before its beginning. -/
def It.prev (i : It) : Res It :=
  if i.p = i.b then (if i.b < i.e then .ok { i with p := i.e - 1 } else .ub)
  else if i.b < i.p then .ok { i with p := i.p - 1 } else .ub

/-- `k` times `++`. -/
def It.forward : Nat → It → Res It
  | 0, i => .ok i
  | k + 1, i => do
      let j ← i.next
      It.forward k j

/-- `k` times `--`. -/
def It.back : Nat → It → Res It
  | 0, i => .ok i
  | k + 1, i => do
      let j ← i.prev
      It.back k j

/-- The iterator stands in the ring. -/
def It.In (i : It) : Prop := i.b ≤ i.p ∧ i.p < i.e

theorem next_in {i : It} (h : i.In) : i.next = .ok { i with p := i.b + (i.p - i.b + 1) % (i.e - i.b) } := by
  obtain ⟨h1, h2⟩ := h
  unfold It.next
  rw [if_pos h2]
  by_cases he : i.p + 1 = i.e
  · rw [if_pos he, show i.p - i.b + 1 = i.e - i.b by omega, Nat.mod_self, Nat.add_zero]
  · rw [if_neg he, Nat.mod_eq_of_lt (by omega), show i.b + (i.p - i.b + 1) = i.p + 1 by omega]

theorem prev_in {i : It} (h : i.In) : i.prev = .ok { i with p := i.b + (i.p - i.b + (i.e - i.b - 1)) % (i.e - i.b) } := by
  obtain ⟨h1, h2⟩ := h
  unfold It.prev
  by_cases he : i.p = i.b
  · rw [if_pos he, if_pos (by omega), he, Nat.sub_self, Nat.zero_add, Nat.mod_eq_of_lt (by omega), show i.b + (i.e - i.b - 1) = i.e - 1 by omega]
  · rw [if_neg he, if_pos (by omega), show i.p - i.b + (i.e - i.b - 1) = i.p - i.b - 1 + (i.e - i.b) by omega, Nat.add_mod_right,
      Nat.mod_eq_of_lt (by omega), show i.b + (i.p - i.b - 1) = i.p - 1 by omega]

/-- C125: `k` steps forward from anywhere in the ring end `k` places further round it, for every `k`. -/
theorem C125_iterator_forward {i : It} (h : i.In) (k : Nat) : It.forward k i = .ok { i with p := i.b + (i.p - i.b + k) % (i.e - i.b) } := by
  induction k generalizing i with
  | zero =>
    obtain ⟨h1, h2⟩ := h
    simp only [It.forward, Nat.add_zero]
    rw [Nat.mod_eq_of_lt (by omega), show i.b + (i.p - i.b) = i.p by omega]
  | succ k ih =>
    simp only [It.forward]
    rw [next_in h, Res.ok_bind]
    have hpos : 0 < i.e - i.b := by obtain ⟨h1, h2⟩ := h; omega
    have hm := Nat.mod_lt (i.p - i.b + 1) hpos
    rw [ih ⟨by simp, by simp; omega⟩]
    simp only [Nat.add_sub_cancel_left, Nat.mod_add_mod]
    congr 3
    rw [show i.p - i.b + 1 + k = i.p - i.b + (k + 1) by omega]

example := C125_iterator_forward (i := ⟨6, 4, 8⟩) ⟨by decide, by decide⟩ 11
example : It.forward 11 ⟨6, 4, 8⟩ = .ok ⟨5, 4, 8⟩ := by decide

/-- C125: `k` steps backward undo `k` steps forward, and the other way round. -/
theorem C125_iterator_back {i : It} (h : i.In) (k : Nat) :
    (It.forward k i >>= It.back k) = .ok i ∧ (It.back k i >>= It.forward k) = .ok i := by
  have hb : ∀ (k : Nat) {i : It}, i.In → It.back k i = .ok { i with p := i.b + (i.p - i.b + k * (i.e - i.b - 1)) % (i.e - i.b) } := by
    intro k
    induction k with
    | zero =>
      intro i h
      obtain ⟨h1, h2⟩ := h
      simp only [It.back, Nat.zero_mul, Nat.add_zero]
      rw [Nat.mod_eq_of_lt (by omega), show i.b + (i.p - i.b) = i.p by omega]
    | succ k ih =>
      intro i h
      simp only [It.back]
      rw [prev_in h, Res.ok_bind]
      have hpos : 0 < i.e - i.b := by obtain ⟨h1, h2⟩ := h; omega
      have hm := Nat.mod_lt (i.p - i.b + (i.e - i.b - 1)) hpos
      rw [ih ⟨by simp, by simp; omega⟩]
      simp only [Nat.add_sub_cancel_left, Nat.mod_add_mod, Nat.succ_mul]
      congr 3
      rw [show i.p - i.b + (i.e - i.b - 1) + k * (i.e - i.b - 1) = i.p - i.b + (k * (i.e - i.b - 1) + (i.e - i.b - 1)) by omega]
  obtain ⟨h1, h2⟩ := h
  have hpos : 0 < i.e - i.b := by omega
  have key : ∀ x : Nat, x < i.e - i.b → (x + k + k * (i.e - i.b - 1)) % (i.e - i.b) = x := by
    intro x hx
    rw [show x + k + k * (i.e - i.b - 1) = x + k * (i.e - i.b) by
      rw [Nat.add_assoc]; congr 1
      rw [show k + k * (i.e - i.b - 1) = k * (i.e - i.b - 1 + 1) by rw [Nat.mul_add, Nat.mul_one, Nat.add_comm], Nat.sub_add_cancel hpos],
      Nat.add_mul_mod_self_right, Nat.mod_eq_of_lt hx]
  constructor
  · rw [C125_iterator_forward ⟨h1, h2⟩, Res.ok_bind]
    have hm := Nat.mod_lt (i.p - i.b + k) hpos
    rw [hb k ⟨by simp, by simp; omega⟩]
    simp only [Nat.add_sub_cancel_left, Nat.mod_add_mod]
    rw [key _ (by omega), show i.b + (i.p - i.b) = i.p by omega]
  · rw [hb k ⟨h1, h2⟩, Res.ok_bind]
    have hm := Nat.mod_lt (i.p - i.b + k * (i.e - i.b - 1)) hpos
    rw [C125_iterator_forward ⟨by simp, by simp; omega⟩]
    simp only [Nat.add_sub_cancel_left, Nat.mod_add_mod]
    rw [show i.p - i.b + k * (i.e - i.b - 1) + k = i.p - i.b + k + k * (i.e - i.b - 1) by omega, key _ (by omega),
      show i.b + (i.p - i.b) = i.p by omega]

example := C125_iterator_back (i := ⟨6, 4, 8⟩) ⟨by decide, by decide⟩ 11

/-- C125 (violated): the ring has no place for an end: going round it from the first element meets the first element again, never a place
that is none, so a loop from `begin()` to an end of the storage does not stop. -/
theorem C125_iterator_no_end_violated {i : It} (h : i.In) (k : Nat) : ∃ j, It.forward k i = .ok j ∧ j.In ∧ j.p ≠ i.e := by
  obtain ⟨h1, h2⟩ := h
  have hm := Nat.mod_lt (i.p - i.b + k) (show 0 < i.e - i.b by omega)
  exact ⟨_, C125_iterator_forward ⟨h1, h2⟩ k, ⟨by simp, by simp; omega⟩, by simp; omega⟩

example := C125_iterator_no_end_violated (i := ⟨4, 4, 8⟩) ⟨by decide, by decide⟩ 100

/-- C125: outside the ring, or without storage, the steps are undefined: `++` at or beyond the end, `--` where the storage is empty or before
its beginning. -/
theorem C125_iterator_ub_exact (i : It) : (i.next = .ub ↔ i.e ≤ i.p) ∧ (i.prev = .ub ↔ i.p < i.b ∨ i.p = i.b ∧ i.e ≤ i.b) := by
  unfold It.next It.prev
  constructor
  · by_cases h : i.p < i.e
    · rw [if_pos h]
      split <;> simp <;> omega
    · rw [if_neg h]
      simp; omega
  · by_cases h : i.p = i.b
    · rw [if_pos h]
      split <;> simp <;> omega
    · rw [if_neg h]
      split <;> simp <;> omega

end Flame.CVecIt
