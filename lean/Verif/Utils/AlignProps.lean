import Verif.Utils.Align
import Verif.Utils.CompareProps

/-!
# C182: objects are put at addresses suitable for their type

The specification is divisibility of the address by the alignment of the type (`Aligned`) and, for buffers, that the object's bytes lie
within the buffer (`Within`).
-/

namespace Flame.Utils.Align

/-- An object of type `t` may be created at `p`. -/
def Aligned (t : Ty) (p : Nat) : Prop := t.al ∣ p

/-- The `size` bytes from `p` on are among the `n` bytes from `base` on. -/
def Within (base n p size : Nat) : Prop := base ≤ p ∧ p + size ≤ base + n

theorem pos_of_ok {t : Ty} (h : t.Ok) : 0 < t.al := by
  obtain ⟨⟨k, hk⟩, _⟩ := h
  rw [hk]
  exact Nat.two_pow_pos k

theorem roundUp_spec {n a : Nat} (ha : 0 < a) : a ∣ roundUp n a ∧ n ≤ roundUp n a ∧ roundUp n a < n + a := by
  refine ⟨⟨_, Nat.mul_comm _ _⟩, ?_, ?_⟩ <;> unfold roundUp
  · have := Nat.mod_lt (n + (a - 1)) ha
    have := Nat.div_add_mod' (n + (a - 1)) a
    omega
  · have := Nat.div_mul_le_self (n + (a - 1)) a
    omega

theorem roundUp_of_dvd {n a : Nat} (ha : 0 < a) (h : a ∣ n) : roundUp n a = n := by
  obtain ⟨h1, h2, h3⟩ := roundUp_spec (n := n) ha
  obtain ⟨x, hx⟩ := h1
  obtain ⟨y, hy⟩ := h
  rw [hx, hy] at h2 h3
  have l1 : y ≤ x := Nat.le_of_mul_le_mul_left h2 ha
  have l2 : x < y + 1 := by
    have : a * x < a * (y + 1) := by rw [Nat.mul_add, Nat.mul_one]; exact h3
    exact Nat.lt_of_mul_lt_mul_left this
  have : x = y := by omega
  rw [hx, hy, this]

/-- **C182, elements in allocated memory**: whatever address `malloc` returned, either every element of the block is at a suitable address
or none is. -/
theorem C182_block_all_or_none {t : Ty} (h : t.Ok) (base : Nat) :
    (∀ i, Aligned t (elem base t i)) ∨ (∀ i, ¬ Aligned t (elem base t i)) := by
  have key : ∀ i, Aligned t (elem base t i) ↔ t.al ∣ base := fun i => by
    have hd : t.al ∣ i * t.size := Nat.dvd_trans h.2.1 (Nat.dvd_mul_left _ _)
    exact (Nat.dvd_add_iff_left hd).symm
  rcases Classical.em (t.al ∣ base) with hb | hb
  · exact .inl fun i => (key i).2 hb
  · exact .inr fun i c => hb ((key i).1 c)

example : (⟨12, 4⟩ : Ty).Ok ∧ Aligned ⟨12, 4⟩ (elem 32 ⟨12, 4⟩ 5) ∧ ¬ Aligned ⟨64, 64⟩ (elem 32 ⟨64, 64⟩ 5) :=
  ⟨⟨⟨2, rfl⟩, ⟨3, rfl⟩, by decide⟩, ⟨23, rfl⟩, by unfold Aligned; decide⟩

/-- **C182, elements in allocated memory, exactly**: the elements of a `Vector`, a `BasicString` or an array of `ArrayAllocator` are at
suitable addresses for every address `malloc` may return if and only if the type's alignment is at most 16. -/
theorem C182_block_exact {t : Ty} (h : t.Ok) {n : Nat} (hn : 0 < n) :
    (∀ base, mallocAl ∣ base → ∀ i, i < n → Aligned t (elem base t i)) ↔ t.al ≤ 16 := by
  obtain ⟨k, hk⟩ := h.1
  constructor
  · intro hh
    have := hh 16 ⟨1, rfl⟩ 0 hn
    unfold Aligned elem at this
    exact Nat.le_of_dvd (by decide) (by simpa using this)
  · intro hle base hb i _
    have hd : t.al ∣ 16 := by
      rw [hk, show 16 = 2 ^ 4 by rfl]
      apply Nat.pow_dvd_pow
      rw [hk, show 16 = 2 ^ 4 by rfl] at hle
      exact (Nat.pow_le_pow_iff_right (by decide)).1 hle
    exact Nat.dvd_add (Nat.dvd_trans hd hb) (Nat.dvd_trans h.2.1 (Nat.dvd_mul_left _ _))

/-- **C182 violated**: for every type with a stricter alignment and every number of elements there is an address that `malloc` may return at which
no element is at a suitable address. -/
theorem C182_block_violated {t : Ty} (h : t.Ok) (ht : 16 < t.al) :
    ∃ base, mallocAl ∣ base ∧ 0 < base ∧ ∀ i, ¬ Aligned t (elem base t i) := by
  refine ⟨16, ⟨1, rfl⟩, by decide, fun i c => ?_⟩
  have hd : t.al ∣ i * t.size := Nat.dvd_trans h.2.1 (Nat.dvd_mul_left _ _)
  have : t.al ∣ 16 := (Nat.dvd_add_iff_left hd).2 c
  exact absurd (Nat.le_of_dvd (by decide) this) (by omega)

example : (⟨96, 32⟩ : Ty).Ok ∧ 16 < (⟨96, 32⟩ : Ty).al := ⟨⟨⟨5, rfl⟩, ⟨3, rfl⟩, by decide⟩, by decide⟩

theorem nodeOffset_spec {t : Ty} (h : t.Ok) : t.al ∣ nodeOffset t ∧ 16 ≤ nodeOffset t := by
  have := roundUp_spec (n := 16) (pos_of_ok h)
  exact ⟨this.1, this.2.1⟩

/-- **C182, list elements, exactly**: an element of a `List` comes after the two links and before the end of its node, and is at a suitable
address for every address `malloc` may return if and only if the type's alignment is at most 16. -/
theorem C182_node_exact {t : Ty} (h : t.Ok) :
    (∀ base, base + 16 ≤ nodeElem base t ∧ nodeElem base t + t.size ≤ base + (node t).size) ∧
    ((∀ base, mallocAl ∣ base → Aligned t (nodeElem base t)) ↔ t.al ≤ 16) := by
  obtain ⟨h1, h2⟩ := nodeOffset_spec h
  refine ⟨fun base => ⟨by unfold nodeElem; omega, ?_⟩, ?_⟩
  · have ha : 0 < max pointer.al t.al := Nat.lt_of_lt_of_le (by decide) (Nat.le_max_left pointer.al t.al)
    have := (roundUp_spec (n := nodeOffset t + t.size) ha).2.1
    unfold nodeElem node
    simp only
    omega
  · have key : ∀ base, Aligned t (nodeElem base t) ↔ Aligned t (elem base t 0) := fun base => by
      unfold Aligned nodeElem elem
      rw [Nat.zero_mul, Nat.add_zero]
      exact (Nat.dvd_add_iff_left h1).symm
    rw [← C182_block_exact h (n := 1) (by decide)]
    constructor
    · intro hh base hb i hi
      have : i = 0 := by omega
      rw [this]
      exact (key base).1 (hh base hb)
    · exact fun hh base hb => (key base).2 (hh base hb 0 (by decide))

/-- Nodes of a byte and of an over-aligned element. -/
example : node ⟨1, 1⟩ = ⟨24, 8⟩ ∧ nodeOffset ⟨1, 1⟩ = 16 ∧ node ⟨32, 32⟩ = ⟨64, 32⟩ ∧ nodeOffset ⟨32, 32⟩ = 32 := by decide

/-- **C182, `AlignedObject`, exactly**: of the alignments that are accepted, those that suit the type wherever the compiler puts the
`AlignedObject` are those at least as strict as the type's; a weaker one is accepted as well and does not suit.  The bytes are within it. -/
theorem C182_alignedObject_exact {t c : Ty} (h : t.Ok) {A : Nat} (hc : alignedObject t A = some c) :
    ((∀ base, Aligned c base → Aligned t (getAddress base)) ↔ t.al ≤ A) ∧
    ∀ base, Within base c.size (getAddress base) t.size := by
  unfold alignedObject at hc
  split at hc
  case isFalse => exact absurd hc (by simp)
  case isTrue hA =>
    obtain rfl : (⟨roundUp t.size A, A⟩ : Ty) = c := by simpa using hc
    have hpow : ∃ k, A = 2 ^ k := by
      unfold accepted at hA
      simp only [List.contains_eq_mem, List.mem_cons, List.not_mem_nil, or_false, decide_eq_true_eq] at hA
      rcases hA with h | h | h | h | h | h | h | h | h | h | h
      · exact ⟨0, h⟩
      · exact ⟨1, h⟩
      · exact ⟨2, h⟩
      · exact ⟨3, h⟩
      · exact ⟨4, h⟩
      · exact ⟨5, h⟩
      · exact ⟨6, h⟩
      · exact ⟨7, h⟩
      · exact ⟨8, h⟩
      · exact ⟨9, h⟩
      · exact ⟨10, h⟩
    obtain ⟨m, hm⟩ := hpow
    obtain ⟨k, hk⟩ := h.1
    have hApos : 0 < A := by rw [hm]; exact Nat.two_pow_pos m
    refine ⟨⟨fun hh => ?_, fun hle base hb => ?_⟩, fun base => ⟨Nat.le_refl _, ?_⟩⟩
    · exact Nat.le_of_dvd hApos (hh A (Nat.dvd_refl A))
    · refine Nat.dvd_trans ?_ hb
      show t.al ∣ A
      rw [hk, hm]
      apply Nat.pow_dvd_pow
      rw [hk, hm] at hle
      exact (Nat.pow_le_pow_iff_right (by decide)).1 hle
    · have := (roundUp_spec (n := t.size) hApos).2.1
      unfold getAddress
      simp only
      omega

/-- `AlignedObject<double, 1>` compiles; at address 1 its object is not suitably aligned. -/
example : alignedObject ⟨8, 8⟩ 1 = some ⟨8, 1⟩ ∧ Aligned ⟨8, 1⟩ 1 ∧ ¬ Aligned ⟨8, 8⟩ (getAddress 1) :=
  ⟨by decide, ⟨1, rfl⟩, by unfold Aligned getAddress; decide⟩

/-- C182: `AlignObject<T>` is accepted exactly for types whose alignment is at most 1024, and then is as large and as strictly aligned as the type. -/
theorem C182_alignObject_exact {t : Ty} (h : t.Ok) : alignObject t = if t.al ≤ 1024 then some t else none := by
  obtain ⟨k, hk⟩ := h.1
  have hacc : accepted t.al = decide (t.al ≤ 1024) := by
    rw [hk]
    by_cases hle : k ≤ 10
    · have : k = 0 ∨ k = 1 ∨ k = 2 ∨ k = 3 ∨ k = 4 ∨ k = 5 ∨ k = 6 ∨ k = 7 ∨ k = 8 ∨ k = 9 ∨ k = 10 := by omega
      rcases this with h | h | h | h | h | h | h | h | h | h | h <;> subst h <;> decide
    · have hb : 2 ^ 11 ≤ 2 ^ k := Nat.pow_le_pow_right (by decide) (by omega)
      rw [decide_eq_false (by omega)]
      unfold accepted
      generalize 2 ^ k = x at hb ⊢
      simp only [List.contains_eq_mem, List.mem_cons, List.not_mem_nil, or_false, decide_eq_false_iff_not]
      omega
  unfold alignObject alignedObject
  rw [hacc]
  simp only [decide_eq_true_eq]
  rw [roundUp_of_dvd (pos_of_ok h) h.2.1]

example : alignObject ⟨24, 8⟩ = some ⟨24, 8⟩ ∧ alignObject ⟨2048, 2048⟩ = none := by decide

/-- **C182, `Array`**: wherever the compiler puts the array, the address the iterators use for element `i` is that of `objects[i]`, it is
suitable for the type, and the element's bytes are before those of the next one, of `tail` and of the end of the `Array`. -/
theorem C182_array {t c : Ty} (h : t.Ok) (hc : alignObject t = some c) {n i base : Nat} (hi : i < n)
    (hb : Aligned (arrayTy c n) base) :
    arrayElem base t i = arrayCell base c i ∧ Aligned t (arrayElem base t i) ∧
    (∀ j, i < j → arrayElem base t i + t.size ≤ arrayElem base t j) ∧
    arrayElem base t i + t.size ≤ base + after (n * c.size) pointer ∧
    Within base (arrayTy c n).size (arrayElem base t i) t.size := by
  rw [C182_alignObject_exact h] at hc
  split at hc
  case isFalse => exact absurd hc (by simp)
  obtain rfl : t = c := by simpa using hc
  have hmul : ∀ {a b : Nat}, a < b → a * t.size + t.size ≤ b * t.size := fun {a b} hab => by
    have := Nat.mul_le_mul_right t.size (show a + 1 ≤ b from hab)
    rwa [Nat.add_mul, Nat.one_mul] at this
  obtain ⟨k, hk⟩ := h.1
  have hbase : t.al ∣ base := by
    refine Nat.dvd_trans ?_ hb
    show t.al ∣ max t.al pointer.al
    rw [hk, show pointer.al = 2 ^ 3 by rfl]
    rcases Nat.le_total k 3 with hle | hle
    · rw [Nat.max_eq_right (Nat.pow_le_pow_right (by decide) hle)]
      exact Nat.pow_dvd_pow 2 hle
    · rw [Nat.max_eq_left (Nat.pow_le_pow_right (by decide) hle)]
      exact Nat.dvd_refl _
  have hr := (roundUp_spec (n := n * t.size) (show 0 < pointer.al by decide)).2.1
  have hin := hmul hi
  have hend : arrayElem base t i + t.size ≤ base + after (n * t.size) pointer := by
    unfold arrayElem elem getAddress after
    omega
  refine ⟨rfl, ?_, fun j hj => ?_, hend, ?_, ?_⟩
  · exact Nat.dvd_add hbase (Nat.dvd_trans h.2.1 (Nat.dvd_mul_left _ _))
  · have := hmul hj
    unfold arrayElem elem getAddress
    omega
  · unfold arrayElem elem getAddress
    omega
  · have ha : 0 < max t.al pointer.al := Nat.lt_of_lt_of_le (by decide) (Nat.le_max_right t.al pointer.al)
    have := (roundUp_spec (n := after (n * t.size) pointer + pointer.size) ha).2.1
    unfold arrayTy
    simp only
    omega

example : arrayTy ⟨3, 1⟩ 3 = ⟨24, 8⟩ ∧ arrayElem 40 ⟨3, 1⟩ 2 = 46 ∧ Aligned (arrayTy ⟨3, 1⟩ 3) 40 := ⟨by decide, by decide, ⟨5, rfl⟩⟩

/-- C182, `Optional`: wherever the compiler puts it, the value is suitably aligned, within it and not on the flag. -/
theorem C182_optional {t c : Ty} (h : t.Ok) (hc : alignObject t = some c) {base : Nat} (hb : Aligned (optionalTy c) base) :
    Aligned t (getAddress base) ∧ Within base ((optionalTy c).size - 1) (getAddress base) t.size := by
  rw [C182_alignObject_exact h] at hc
  split at hc
  case isFalse => exact absurd hc (by simp)
  obtain rfl : t = c := by simpa using hc
  have := (roundUp_spec (n := t.size + 1) (pos_of_ok h)).2.1
  refine ⟨hb, Nat.le_refl _, ?_⟩
  unfold optionalTy getAddress
  simp only
  omega

example : optionalTy ⟨24, 8⟩ = ⟨32, 8⟩ ∧ Aligned (optionalTy ⟨24, 8⟩) 16 := ⟨by decide, ⟨2, rfl⟩⟩

theorem least_eq {a p q : Nat} (ha : 0 < a) (hq : IsLeastAligned a p q) :
    q = p + if p % a ≠ 0 then a - p % a else 0 := by
  obtain ⟨hl, _⟩ := least_exists (a := a) (p := p) ha
  exact Nat.le_antisymm (hq.2.2 _ hl.1 hl.2.1) (hl.2.2 _ hq.1 hq.2.1)

/-- How far `alignedPointer` may move an address that is a multiple of `my`: at most to the last multiple of `my` before `al`. -/
theorem shift_le {my al p : Nat} (hmy : ∃ k, my = 2 ^ k) (hal : ∃ k, al = 2 ^ k) (hp : my ∣ p) :
    (if p % al ≠ 0 then al - p % al else 0) ≤ al - my := by
  obtain ⟨j, rfl⟩ := hmy
  obtain ⟨k, rfl⟩ := hal
  rcases Nat.le_total k j with hle | hle
  · have : p % 2 ^ k = 0 := Nat.mod_eq_zero_of_dvd (Nat.dvd_trans (Nat.pow_dvd_pow 2 hle) hp)
    rw [if_neg (by omega)]
    omega
  · split
    · rename_i h
      have hd : 2 ^ j ∣ p % 2 ^ k := (Nat.dvd_mod_iff (Nat.pow_dvd_pow 2 hle)).2 hp
      have : 2 ^ j ≤ p % 2 ^ k := Nat.le_of_dvd (by omega) hd
      omega
    · omega

/-- **C182, `Object`**: if the type is accepted, then wherever the compiler puts the `Object` (its bytes within one half of the address space)
the value is put at a suitable address among them. -/
theorem C182_object {t : Ty} (h : t.Ok) {n my data : Nat} (hmy : ∃ k, my = 2 ^ k) (hc : staticCheck n my t = true)
    (hd : my ∣ data) (h0 : 0 < data) (hs : data + n ≤ 2 ^ 63 ∨ (2 ^ 63 ≤ data ∧ data + n ≤ 2 ^ 64)) :
    ∃ p, objectPlace data t = .ok p ∧ Aligned t p ∧ Within data n p t.size := by
  have hpos := pos_of_ok h
  obtain ⟨hl, _⟩ := least_exists (a := t.al) (p := data) hpos
  have hsh := shift_le hmy h.1 hd
  generalize hg : (if data % t.al ≠ 0 then t.al - data % t.al else 0) = s at hl hsh
  have hsz : t.size + s ≤ n := by
    unfold staticCheck at hc
    simp only [Bool.and_eq_true, decide_eq_true_eq] at hc
    obtain ⟨h1, h2⟩ := hc
    split at h2
    · simp only [decide_eq_true_eq] at h2
      omega
    · omega
  have hpos' := h.2.2
  refine ⟨data + s, ?_, hl.1, ⟨Nat.le_add_right _ _, by omega⟩⟩
  exact (C49_least_partial hpos h0 hl (by omega)).1

example : staticCheck 64 8 ⟨32, 16⟩ = true ∧ staticCheck 48 8 ⟨32, 16⟩ = false ∧ objectPlace 1000 ⟨32, 16⟩ = .ok 1008 := by decide +kernel

/-- **C182, `Object`, exactly**: a type is put within the bytes of every `Object` the compiler may place if and only if its size and
the furthest it may have to be moved are at most the size of the buffer; the check asks for more when the type is more strictly aligned. -/
theorem C182_object_exact {t : Ty} (h : t.Ok) {n my : Nat} (hmy : ∃ k, my = 2 ^ k) (hn : n ≤ 2 ^ 60) (hmy' : my ≤ 2 ^ 60) (hal : t.al ≤ 2 ^ 60) :
    (∀ data, my ∣ data → 0 < data → data + n ≤ 2 ^ 63 → ∃ p, objectPlace data t = .ok p ∧ Aligned t p ∧ Within data n p t.size) ↔
    t.size + (t.al - my) ≤ n := by
  have hpos := pos_of_ok h
  have hmpos : 0 < my := by
    obtain ⟨k, rfl⟩ := hmy
    exact Nat.two_pow_pos k
  constructor
  · intro hh
    -- the first multiple of `my` after a multiple of `al`
    rcases Nat.lt_or_ge my t.al with hlt | hge
    · have hdv : my ∣ t.al + my := by
        obtain ⟨j, rfl⟩ := hmy
        obtain ⟨k, hk⟩ := h.1
        rw [hk] at hlt ⊢
        have : j ≤ k := Nat.le_of_lt ((Nat.pow_lt_pow_iff_right (by decide)).1 hlt)
        exact Nat.dvd_add (Nat.pow_dvd_pow 2 this) (Nat.dvd_refl _)
      obtain ⟨p, hp, _, hw⟩ := hh (t.al + my) hdv (by omega) (by omega)
      · have hl := (least_exists (a := t.al) (p := t.al + my) hpos).1
        have hm : (t.al + my) % t.al = my := by rw [Nat.add_mod_left, Nat.mod_eq_of_lt hlt]
        rw [hm, if_pos (by omega)] at hl
        have := (C49_least_partial hpos (by omega) hl (by omega)).1
        unfold objectPlace at hp
        rw [this] at hp
        have hpe : t.al + my + (t.al - my) = p := by injection hp
        have := hw.2
        omega
    · obtain ⟨p, hp, _, hw⟩ := hh my (Nat.dvd_refl _) hmpos (by omega)
      have h1 := hw.1
      have h2 := hw.2
      omega
  · intro hle data hd h0 hs
    obtain ⟨hl, _⟩ := least_exists (a := t.al) (p := data) hpos
    have hsh := shift_le hmy h.1 hd
    generalize hg : (if data % t.al ≠ 0 then t.al - data % t.al else 0) = s at hl hsh
    have hpos' := h.2.2
    refine ⟨data + s, ?_, hl.1, ⟨Nat.le_add_right _ _, by omega⟩⟩
    exact (C49_least_partial hpos h0 hl (by omega)).1

/-- A type that would always fit and is refused. -/
example : (⟨32, 16⟩ : Ty).size + ((⟨32, 16⟩ : Ty).al - 8) ≤ 40 ∧ staticCheck 40 8 ⟨32, 16⟩ = false := by decide

/-- Wherever the compiler may put an `Object` of `n` bytes aligned as `my`, a value of type `t` has a suitable place among the bytes. -/
def Fits (n my : Nat) (t : Ty) : Prop :=
  ∀ data, my ∣ data → 0 < data → data + n ≤ 2 ^ 63 → ∃ p, objectPlace data t = .ok p ∧ Aligned t p ∧ Within data n p t.size

/-- **C182, what `Object` accepts, exactly**: a type no more strictly aligned than the `Object` is accepted if and only if it fits; a more strictly
aligned one if and only if it would fit with `my + 1` bytes to spare. -/
theorem C182_object_check_exact {t : Ty} (h : t.Ok) {n my : Nat} (hmy : ∃ k, my = 2 ^ k) (hn : n ≤ 2 ^ 60) (hmy' : my ≤ 2 ^ 60) (hal : t.al ≤ 2 ^ 60) :
    (t.al ≤ my → (staticCheck n my t = true ↔ Fits n my t)) ∧
    (my < t.al → (staticCheck n my t = true ↔ ∃ m, m + my + 1 = n ∧ Fits m my t)) := by
  have key : ∀ m, m ≤ 2 ^ 60 → (Fits m my t ↔ t.size + (t.al - my) ≤ m) := fun m hm => C182_object_exact h hmy hm hmy' hal
  have hpos := h.2.2
  refine ⟨fun hle => ?_, fun hlt => ?_⟩
  · rw [key n hn]
    unfold staticCheck
    rw [if_neg (by omega)]
    simp only [Bool.and_true, decide_eq_true_eq]
    omega
  · unfold staticCheck
    rw [if_pos hlt]
    simp only [Bool.and_eq_true, decide_eq_true_eq]
    constructor
    · intro hc
      exact ⟨n - my - 1, by omega, (key _ (by omega)).2 (by omega)⟩
    · rintro ⟨m, hm, hf⟩
      have := (key m (by omega)).1 hf
      omega

example : (⟨32, 16⟩ : Ty).Ok ∧ staticCheck 48 8 ⟨32, 16⟩ = false ∧ staticCheck 49 8 ⟨32, 16⟩ = true ∧
    staticCheck 24 8 ⟨24, 8⟩ = true ∧ staticCheck 23 8 ⟨24, 8⟩ = false := ⟨⟨⟨4, rfl⟩, ⟨2, rfl⟩, by decide⟩, by decide⟩

namespace Flame.Utils.Align
example := C182_block_exact (t := ⟨12, 4⟩) ⟨⟨2, rfl⟩, ⟨3, rfl⟩, by decide⟩ (n := 3) (by decide)
end Flame.Utils.Align

end Flame.Utils.Align
