import Verif.Range.Model
import Verif.Bytes.Lemmas

/-!
# C193: a range visits what it was made from

The specification: going through a list of elements, each being replaced and the program's state changed along the way.
-/

namespace Flame.RangeM
open BytesSpec
open Bytes (mem ofMem)
open Own (upd upd_self)

/-! ## Specification -/

/-- The elements after a body ran on them one after another, and the state afterwards. -/
def through (g : α → σ → α × σ) : List α → σ → List α × σ
  | [], s => ([], s)
  | x :: xs, s => ((g x s).1 :: (through g xs (g x s).2).1, (through g xs (g x s).2).2)

/-- Elements `i` up to but without `j`. -/
def slice (i j : Nat) (l : List α) : List α := (l.take j).drop i

/-- Put `ys` at place `i`. -/
def patch (l : List α) (i : Nat) (ys : List α) : List α := l.take i ++ ys ++ l.drop (i + ys.length)

theorem through_length (g : α → σ → α × σ) (l : List α) (s : σ) : (through g l s).1.length = l.length := by
  induction l generalizing s with
  | nil => rfl
  | cons x xs ih => simp [through, ih]

theorem upd_upd (m : Mem α) (b : Nat) (x y : List α) : upd (upd m b x) b y = upd m b y := by
  funext k
  by_cases h : k = b <;> simp [upd, h]

theorem upd_same (m : Mem α) (b : Nat) : upd m b (m b) = m := by
  funext k
  by_cases h : k = b <;> simp [upd, h]

theorem slice_cons {l : List α} {i j : Nat} (hij : i < j) {x : α} (hx : l[i]? = some x) : slice i j l = x :: slice (i + 1) j l := by
  have hi : i < l.length := by
    rcases Nat.lt_or_ge i l.length with h | h
    · exact h
    · rw [List.getElem?_eq_none h] at hx; cases hx
  have hx' : l[i] = x := by rw [List.getElem?_eq_getElem hi] at hx; exact Option.some.inj hx
  unfold slice
  rw [List.drop_eq_getElem_cons (by rw [List.length_take]; omega)]
  simp [hx']

theorem slice_set {l : List α} {i j : Nat} (y : α) : slice (i + 1) j (l.set i y) = slice (i + 1) j l := by
  unfold slice
  rw [List.take_set, List.drop_set_of_lt (by omega)]

theorem patch_set {l : List α} {i : Nat} (hi : i < l.length) (y : α) (ys : List α) :
    patch (l.set i y) (i + 1) ys = patch l i (y :: ys) := by
  unfold patch
  rw [List.drop_set_of_lt (by omega), List.length_cons, List.take_set, List.take_succ_eq_append_getElem hi]
  rw [List.set_append_right _ _ (by simp; omega)]
  have : i - (List.take i l).length = 0 := by simp; omega
  rw [this]
  simp [Nat.add_assoc, Nat.add_comm 1]

/-- The loop from `i` to `j` of one array. -/
theorem each_ok (g : α → σ → α × σ) (b j : Nat) : ∀ (k : Nat) (m : Mem α) (i : Nat) (s : σ) (fuel : Nat), j - i = k → i ≤ j → j ≤ (m b).length →
    k < fuel → each g fuel m ⟨.place b i, .place b j⟩ s =
      .ok (upd m b (patch (m b) i (through g (slice i j (m b)) s).1), (through g (slice i j (m b)) s).2) := by
  intro k
  induction k with
  | zero =>
    intro m i s fuel hk hij hj hf
    obtain ⟨f, rfl⟩ : ∃ f, fuel = f + 1 := ⟨fuel - 1, by omega⟩
    have : i = j := by omega
    subst this
    have hs : slice i i (m b) = [] := by
      unfold slice
      apply List.drop_eq_nil_of_le
      rw [List.length_take]; omega
    simp [each, same, hs, through, patch, upd_same]
  | succ k ih =>
    intro m i s fuel hk hij hj hf
    obtain ⟨f, rfl⟩ : ∃ f, fuel = f + 1 := ⟨fuel - 1, by omega⟩
    have hi : i < (m b).length := by omega
    have hne : i ≠ j := by omega
    have hx : (m b)[i]? = some (m b)[i] := List.getElem?_eq_getElem hi
    have := ih (upd m b ((m b).set i (g (m b)[i] s).1)) (i + 1) (g (m b)[i] s).2 f (by omega) (by omega) (by simp; omega) (by omega)
    simp only [each, same, Ptr.place.injEq, hne, and_false, decide_false, Res.ok_bind, Bool.false_eq_true, if_false, hx, this, upd_self]
    rw [upd_upd, slice_set, patch_set hi, slice_cons (show i < j by omega) hx]
    rfl

/-- Past the last place, or towards a place that is never reached, the loop runs out of the array. -/
theorem each_out (g : α → σ → α × σ) (b : Nat) : ∀ (k : Nat) (m : Mem α) (i : Nat) (q : Ptr) (s : σ) (fuel : Nat), (m b).length - i = k →
    i ≤ (m b).length → (∀ j, q = .place b j → j < i ∨ (m b).length < j) → k < fuel → each g fuel m ⟨.place b i, q⟩ s = .ub := by
  intro k
  induction k with
  | zero =>
    intro m i q s fuel hk hle hq hf
    obtain ⟨f, rfl⟩ : ∃ f, fuel = f + 1 := ⟨fuel - 1, by omega⟩
    have hn : (m b)[i]? = none := List.getElem?_eq_none (by omega)
    cases q with
    | null => simp [each, same, hn]
    | unset => simp [each, same]
    | place b' j =>
      by_cases he : b = b' ∧ i = j
      · obtain ⟨rfl, rfl⟩ := he
        have := hq i rfl
        omega
      · simp [each, same, hn, he]
  | succ k ih =>
    intro m i q s fuel hk hle hq hf
    obtain ⟨f, rfl⟩ : ∃ f, fuel = f + 1 := ⟨fuel - 1, by omega⟩
    have hi : i < (m b).length := by omega
    have hx : (m b)[i]? = some (m b)[i] := List.getElem?_eq_getElem hi
    have := ih (upd m b ((m b).set i (g (m b)[i] s).1)) (i + 1) q (g (m b)[i] s).2 f (by simp; omega) (by simp; omega)
      (by intro j hj; have := hq j hj; simp; omega) (by omega)
    cases q with
    | null => simp [each, same, hx, this]
    | unset => simp [each, same]
    | place b' j =>
      by_cases he : b = b' ∧ i = j
      · obtain ⟨rfl, rfl⟩ := he
        have := hq i rfl
        omega
      · simp [each, same, hx, he, this]

/-! ## C193 -/

/-- C193: a loop over the range from place `i` to place `j` of an array runs its body on exactly the elements between them, each once, in
order; what the body stores goes there and nowhere else. -/
theorem C193_each (g : α → σ → α × σ) (m : Mem α) {b i j : Nat} (hij : i ≤ j) (hj : j ≤ (m b).length) (s : σ) {fuel : Nat} (hf : j - i < fuel) :
    each g fuel m (ofPair (.place b i) (.place b j)) s =
      .ok (upd m b (patch (m b) i (through g (slice i j (m b)) s).1), (through g (slice i j (m b)) s).2) :=
  each_ok g b j _ m i s fuel rfl hij hj hf

example := C193_each (fun x (s : Nat) => (x * 2, s + x)) (fun _ => [1, 2, 3, 4]) (b := 0) (i := 1) (j := 3) (by decide) (by decide) 0
  (fuel := 3) (by decide)

/-- Elements 1 and 2 are doubled and summed up, the others are left alone. -/
example : (match each (fun x (s : Nat) => (x * 2, s + x)) 9 (fun _ => [1, 2, 3, 4]) (ofPair (.place 0 1) (.place 0 3)) 0 with
    | .ok (m, s) => (m 0, m 1, s) | _ => ([], [], 0)) = ([1, 4, 6, 4], [1, 2, 3, 4], 5) := by decide +kernel

/-- C193: what lies outside the two places keeps its value, in that array and in the others. -/
theorem C193_nothing_else {g : α → σ → α × σ} {m : Mem α} {b i j : Nat} (hij : i ≤ j) (hj : j ≤ (m b).length) {s : σ} {fuel : Nat}
    (hf : j - i < fuel) {m' : Mem α} {s' : σ} (h : each g fuel m (ofPair (.place b i) (.place b j)) s = .ok (m', s')) (b' k : Nat)
    (hk : b' ≠ b ∨ k < i ∨ j ≤ k) : (m' b')[k]? = (m b')[k]? := by
  rw [C193_each g m hij hj s hf] at h
  injection h with h
  injection h with h1 h2
  subst h1
  by_cases hb : b' = b
  · subst hb
    have hl := through_length g (slice i j (m b')) s
    have hs : (slice i j (m b')).length = j - i := by unfold slice; rw [List.length_drop, List.length_take]; omega
    rw [upd_self, patch]
    rcases hk with hk | hk | hk
    · exact absurd rfl hk
    · rw [List.getElem?_append_left (by simp; omega), List.getElem?_append_left (by simp; omega), List.getElem?_take_of_lt hk]
    · rw [List.getElem?_append_right (by simp; omega), List.getElem?_drop]
      congr 1
      simp; omega
  · simp [upd, hb]

example : ∃ m' s', each (fun x (s : Nat) => (x * 2, s + x)) 9 (fun _ => [1, 2, 3, 4]) (ofPair (.place 0 1) (.place 0 3)) 0 = .ok (m', s') ∧
    (m' 0)[3]? = some 4 :=
  ⟨_, _, C193_each _ _ (by decide) (by decide) 0 (by decide),
    C193_nothing_else (b := 0) (i := 1) (j := 3) (fuel := 9) (by decide) (by decide) (by decide)
      (C193_each _ _ (by decide) (by decide) 0 (by decide)) 0 3 (by decide)⟩

/-- C193, exactly: such a loop has a meaning iff the end is not before the beginning and lies in the array, as the
beginning does. -/
theorem C193_each_exact (g : α → σ → α × σ) (m : Mem α) {b i : Nat} (hi : i ≤ (m b).length) (j : Nat) (s : σ) {fuel : Nat} (hf : (m b).length + j < fuel) :
    each g fuel m (ofPair (.place b i) (.place b j)) s ≠ .ub ↔ i ≤ j ∧ j ≤ (m b).length := by
  constructor
  · intro h
    by_cases h1 : i ≤ j ∧ j ≤ (m b).length
    · exact h1
    · exfalso
      apply h
      exact each_out g b _ m i _ s fuel rfl hi (by intro j' hj'; injection hj' with _ hj'; subst hj'; omega) (by omega)
  · rintro ⟨h1, h2⟩
    rw [C193_each g m h1 h2 s (by omega)]
    simp

example := C193_each_exact (fun x (s : Nat) => (x, s + x)) (fun _ => [1, 2, 3, 4]) (b := 0) (i := 3) (by decide) 1 0 (fuel := 6) (by decide)

/-- C193: the ends of a range of two arrays never meet. -/
theorem C193_two_arrays_ub (g : α → σ → α × σ) (m : Mem α) {b c : Nat} (hbc : b ≠ c) {i : Nat} (hi : i ≤ (m b).length) (j : Nat) (s : σ) {fuel : Nat} (hf : (m b).length < fuel) :
    each g fuel m (ofPair (.place b i) (.place c j)) s = .ub :=
  each_out g b _ m i _ s fuel rfl hi (by intro j' hj'; injection hj' with h _; exact absurd h.symm hbc) (by omega)

example := C193_two_arrays_ub (fun x (s : Nat) => (x, s + x)) (fun _ => [1, 2]) (b := 0) (c := 1) (by decide) (i := 0) (by decide) 1 0 (fuel := 3) (by decide)

/-! ### The makers -/

theorem seen_ok (m : Mem α) {b i j : Nat} (hij : i ≤ j) (hj : j ≤ (m b).length) {fuel : Nat} (hf : j - i < fuel) :
    seen fuel m ⟨.place b i, .place b j⟩ = .ok (slice i j (m b)) := by
  have key : ∀ (l acc : List α), (through (fun x l => (x, l ++ [x])) l acc).2 = acc ++ l := by
    intro l
    induction l with
    | nil => intro acc; simp [through]
    | cons x xs ih => intro acc; simp [through, ih]
  have := C193_each (fun x l => (x, l ++ [x])) m hij hj ([] : List α) hf
  unfold ofPair at this
  simp [seen, this, key]

/-- C193: the range of an array is all of it. -/
theorem C193_array (m : Mem α) (b : Nat) {fuel : Nat} (hf : (m b).length < fuel) :
    ∃ r, ofArray m b = .ok r ∧ seen fuel m r = .ok (m b) := by
  refine ⟨⟨.place b 0, .place b (m b).length⟩, by simp [ofArray, add], ?_⟩
  rw [seen_ok m (Nat.zero_le _) (Nat.le_refl _) (by omega)]
  simp [slice]

example := C193_array (fun _ => ["a", "b"]) 3 (fuel := 3) (by decide)

/-- C193: the range of a pointer and a size is the `n` elements from there, if there are as many; making it is undefined otherwise. -/
theorem C193_pointer_exact (m : Mem α) (b i n : Nat) :
    (i + n ≤ (m b).length → ∃ r, ofPointer m (.place b i) n = .ok r ∧ ∀ fuel, n < fuel → seen fuel m r = .ok (((m b).drop i).take n)) ∧
    ((m b).length < i + n → ofPointer m (.place b i) n = .ub) := by
  constructor
  · intro h
    refine ⟨⟨.place b i, .place b (i + n)⟩, by simp [ofPointer, add, h], ?_⟩
    intro fuel hf
    rw [seen_ok m (by omega) h (by omega)]
    simp only [slice, List.drop_take]
    congr 2
    omega
  · intro h
    have : ¬ i + n ≤ (m b).length := by omega
    simp [ofPointer, add, this]

example : ofPointer (fun _ => ["a", "b", "c"]) (.place 0 1) 2 = .ok ⟨.place 0 1, .place 0 3⟩ := by decide
example := (C193_pointer_exact (fun _ => ["a", "b", "c"]) 0 1 2).1 (by decide)
example := (C193_pointer_exact (fun _ => ["a", "b", "c"]) 0 2 2).2 (by decide)

/-- C193: the null pointer and size 0 give an empty range; any other size is undefined. -/
theorem C193_null_exact (m : Mem α) (n : Nat) :
    (n = 0 → ∃ r, ofPointer m .null n = .ok r ∧ ∀ fuel, 0 < fuel → seen fuel m r = .ok []) ∧ (n ≠ 0 → ofPointer m .null n = .ub) := by
  constructor
  · rintro rfl
    refine ⟨⟨.null, .null⟩, by simp [ofPointer, add], ?_⟩
    intro fuel hf
    obtain ⟨f, rfl⟩ : ∃ f, fuel = f + 1 := ⟨fuel - 1, by omega⟩
    simp [seen, each, same]
  · intro h
    simp [ofPointer, add, h]

example := (C193_null_exact (fun _ => ["a"]) 0).1 rfl
example := (C193_null_exact (fun _ => ["a"]) 1).2 (by decide)

/-- C193: the range of a container is its elements, not the rest of its storage. -/
theorem C193_container (m : Mem α) (b : Nat) {size : Nat} (h : size ≤ (m b).length) {fuel : Nat} (hf : size < fuel) :
    seen fuel m (ofContainer b size) = .ok ((m b).take size) := by
  unfold ofContainer ofPair
  rw [seen_ok m (Nat.zero_le _) h (by omega)]
  simp [slice]

example := C193_container (fun _ => ["a", "b", "spare"]) 3 (size := 2) (by decide) (fuel := 3) (by decide)

/-- C193: a copied, moved or assigned range makes every loop do what the original's does, whichever constness `begin()` and `end()` have. -/
theorem C193_copy (g : α → σ → α × σ) (fuel : Nat) (m : Mem α) (r : Rng Ptr) (s : σ) :
    each g fuel m (ofPair (Rng.copy r).begin (Rng.copy r).end) s = each g fuel m r s := rfl

/-- C193: a range is a view: it shows what is in the array when the loop runs, not when the range was made. -/
theorem C193_view (m : Mem α) {b i j k : Nat} (hj : j ≤ (m b).length) (hik : i ≤ k) (hkj : k < j) (x : α) {fuel : Nat} (hf : j - i < fuel) :
    seen fuel (upd m b ((m b).set k x)) (ofPair (.place b i) (.place b j)) = .ok ((slice i j (m b)).set (k - i) x) := by
  unfold ofPair
  rw [seen_ok _ (by omega) (by simpa using hj) hf, upd_self]
  simp only [slice, List.take_set, List.drop_set]
  rw [if_neg (by omega)]

example := C193_view (fun _ => ["a", "b", "c"]) (b := 0) (i := 1) (j := 3) (k := 2) (by decide) (by decide) (by decide) "z" (fuel := 3) (by decide)

/-- C193 (violated): a range made without arguments is not an empty one: looking through it is undefined. -/
theorem C193_default_ub (g : α → σ → α × σ) (m : Mem α) (s : σ) (fuel : Nat) : each g (fuel + 1) m Rng.default s = .ub := by
  simp [each, Rng.default, same]

example := C193_default_ub (fun x (s : Nat) => (x, s + 1)) (fun _ => ["a"]) 0 5

/-! ### Bytes of a number -/

/-- C193: the byte range of a number shows its bytes, in the order of the host. -/
theorem C193_bytes (host : Order) (w : Width) (v : BitVec (8 * w.n)) {m : Mem Byte} {b : Nat} (hb : m b = mem host w v) {fuel : Nat}
    (hf : w.n < fuel) : ∃ r, ofValue m b w.n = .ok r ∧ seen fuel m r = .ok (wire host w v) := by
  have hl : (m b).length = w.n := by rw [hb, Bytes.mem_length]
  refine ⟨⟨.place b 0, .place b w.n⟩, by simp [ofValue, add, hl, ofPair], ?_⟩
  rw [seen_ok m (Nat.zero_le _) (by omega) (by omega)]
  have hs : slice 0 w.n (m b) = m b := by simp [slice, ← hl]
  rw [hs, hb, Bytes.mem_eq_wire]

/-- C193: storing the bytes of `v'` through the byte range of a number makes it `v'`. -/
theorem C193_bytes_store (host : Order) (w : Width) (v v' : BitVec (8 * w.n)) {m : Mem Byte} {b : Nat} (hb : m b = mem host w v) {fuel : Nat}
    (hf : w.n < fuel) : ∃ r m', ofValue m b w.n = .ok r ∧
      each (fun _ (l : List Byte) => (l.headD 0, l.tail)) fuel m r (wire host w v') = .ok (m', []) ∧ ofMem host w (m' b) = v' ∧
      ∀ c, c ≠ b → m' c = m c := by
  have hl : (m b).length = w.n := by rw [hb, Bytes.mem_length]
  have hw : (wire host w v').length = w.n := by rw [← Bytes.mem_eq_wire, Bytes.mem_length]
  have key : ∀ (l ys : List Byte), l.length = ys.length → through (fun _ (l : List Byte) => (l.headD 0, l.tail)) l ys = (ys, []) := by
    intro l
    induction l with
    | nil => intro ys h; cases ys with
      | nil => rfl
      | cons _ _ => simp at h
    | cons x xs ih => intro ys h; cases ys with
      | nil => simp at h
      | cons y ys =>
        simp only [through, List.headD_cons, List.tail_cons]
        rw [ih ys (by simpa using h)]
  refine ⟨⟨.place b 0, .place b w.n⟩, upd m b (wire host w v'), by simp [ofValue, add, hl, ofPair],
    (C193_each _ m (Nat.zero_le _) (by omega) _ (by omega)).trans ?_, ?_, ?_⟩
  · have hs : slice 0 w.n (m b) = m b := by simp [slice, ← hl]
    rw [hs, key _ _ (by omega)]
    simp [patch, hw, ← hl]
  · rw [upd_self, ← Bytes.mem_eq_wire, Bytes.ofMem_mem]
  · intro c hc
    simp [upd, hc]

example : ∃ r, ofValue (fun _ => mem .le .w4 0x12345678#32) 0 4 = .ok r ∧
    seen 5 (fun _ => mem .le .w4 0x12345678#32) r = .ok [0x78, 0x56, 0x34, 0x12] := by
  obtain ⟨r, h1, h2⟩ := C193_bytes .le .w4 0x12345678#32 (m := fun _ => mem .le .w4 0x12345678#32) (b := 0) rfl (fuel := 5) (by decide)
  exact ⟨r, h1, h2.trans (by decide +kernel)⟩
example := C193_bytes_store .le .w4 0x12345678#32 7#32 (m := fun _ => mem .le .w4 0x12345678#32) (b := 0) rfl (fuel := 5) (by decide)

/-! ### Iterators of any kind -/

/-- The places an iterator goes through: `p`, its successor, … , `n` of them. -/
def places (next : It → It) : Nat → It → List It
  | 0, _ => []
  | n + 1, p => p :: places next n (next p)

/-- The place after `n` steps. -/
def after (next : It → It) : Nat → It → It
  | 0, p => p
  | n + 1, p => after next n (next p)

/-- C193: for any iterators, a loop over a range whose end is reached after `n` steps and not before reads exactly the places on the way. -/
theorem C193_iterators [DecidableEq It] (next : It → It) (read : It → Option α) (n : Nat) (f : It) (hd : ∀ p ∈ places next n f, p ≠ after next n f)
    (xs : List α) (hr : (places next n f).map read = xs.map some) {fuel : Nat} (hf : n < fuel) :
    eachIt next read fuel (ofPair f (after next n f)) = .ok xs := by
  unfold ofPair
  induction n generalizing f xs fuel with
  | zero =>
    obtain ⟨k, rfl⟩ : ∃ k, fuel = k + 1 := ⟨fuel - 1, by omega⟩
    cases xs with
    | nil => simp [eachIt, after]
    | cons _ _ => simp [places] at hr
  | succ n ih =>
    obtain ⟨k, rfl⟩ : ∃ k, fuel = k + 1 := ⟨fuel - 1, by omega⟩
    cases xs with
    | nil => simp [places] at hr
    | cons x xs =>
      simp only [places, List.map_cons, List.cons.injEq] at hr
      have hne : f ≠ after next (n + 1) f := hd f (by simp [places])
      have := ih (next f) (fun p hp => hd p (by simp [places, hp])) xs hr.2 (fuel := k) (by omega)
      simp only [eachIt, hne, if_false, hr.1]
      simp only [after]
      rw [this]
      simp

/-- Nodes 5, 3, 8 linked in this order before the list's end 0. -/
example := C193_iterators (fun p => if p = 5 then 3 else if p = 3 then 8 else 0) (fun p => if p = 0 then none else some (10 * p)) 3 5 (by decide)
  [50, 30, 80] (by decide) (fuel := 4) (by decide)

/-! ### Which makers compile -/

/-- The members return the iterators named after them, iterators convert to themselves. -/
structure Regular (c : Cont ι) : Prop where
  refl : ∀ i, c.conv i i = true
  b : c.begins = c.iterator
  cb : c.cbegins = c.constIterator
  rb : c.rbegins = c.reverseIterator
  crb : c.crbegins = c.constReverseIterator

/-- C193: the forward makers compile for every such container and give ranges of its iterators. -/
theorem C193_forward (c : Cont ι) (h : Regular c) : makeRange c = some c.iterator ∧ makeConstRange c = some c.constIterator := by
  simp [makeRange, makeConstRange, h.b, h.cb, h.refl]

/-- C193 (violated): the backward makers compile for no container whose backward iterators differ from its const forward ones, however its
iterators convert. -/
theorem C193_reverse_violated [DecidableEq ι] (c : Cont ι) :
    (c.constIterator ≠ c.reverseIterator → makeReverseRange c = none) ∧ (c.constIterator ≠ c.constReverseIterator → makeConstReverseRange c = none) := by
  constructor <;> intro h <;> simp [makeReverseRange, makeConstReverseRange, h]

/-- C193: the forward maker refuses a const container, whose `begin()` gives an iterator that does not convert. -/
theorem C193_const_container (c : Cont ι) (h : c.conv c.begins c.iterator = false) : makeRange c = none := by
  simp [makeRange, h]

/-- `Vector<T>`. -/
def vector : Cont String := ⟨"Iterator", "ConstIterator", "ReverseIterator", "ConstReverseIterator", "Iterator", "ConstIterator", "ReverseIterator",
  "ConstReverseIterator", fun a b => a = b || (a == "Iterator" && b == "ConstIterator")⟩

example := C193_forward vector ⟨by simp [vector], rfl, rfl, rfl, rfl⟩
example := (C193_reverse_violated vector).1 (by decide)
example := (C193_reverse_violated vector).2 (by decide)
example := C193_const_container { vector with begins := "ConstIterator" } (by decide)

end Flame.RangeM
