import Verif.Bytes.Serial

/-!
# Lemmas about byte order and serialization
-/

namespace Flame.Bytes
open BytesSpec

theorem ff (w : Nat) (hw : 8 ≤ w) (j : Nat) : (BitVec.ofNat w 255).getLsbD j = decide (j < 8) := by
  rw [BitVec.getLsbD_ofNat]
  by_cases h : j < 8
  · have : j = 0 ∨ j = 1 ∨ j = 2 ∨ j = 3 ∨ j = 4 ∨ j = 5 ∨ j = 6 ∨ j = 7 := by omega
    have hw' : j < w := by omega
    rcases this with h | h | h | h | h | h | h | h <;> subst h <;> simp [hw'] <;> rfl
  · have := Nat.testBit_lt_two_pow (i := j) (x := 255)
      (Nat.lt_of_lt_of_le (by decide : 255 < 2 ^ 8) (Nat.pow_le_pow_right (by omega) (by omega)))
    simp [h, this]

theorem rev64_byte (v : BitVec 64) (i : Nat) (h : i < 8) :
    (rev64 v).extractLsb' (8 * i) 8 = v.extractLsb' (8 * (7 - i)) 8 := by
  have : i = 0 ∨ i = 1 ∨ i = 2 ∨ i = 3 ∨ i = 4 ∨ i = 5 ∨ i = 6 ∨ i = 7 := by omega
  have f0 := ff 64 (by decide)
  apply BitVec.eq_of_getLsbD_eq
  intro j hj
  simp only [rev64, BitVec.getLsbD_extractLsb', BitVec.getLsbD_or, BitVec.getLsbD_shiftLeft, BitVec.getLsbD_ushiftRight,
    BitVec.getLsbD_and, f0]
  rcases this with h | h | h | h | h | h | h | h <;> subst h <;>
  (have hj' : j = 0 ∨ j = 1 ∨ j = 2 ∨ j = 3 ∨ j = 4 ∨ j = 5 ∨ j = 6 ∨ j = 7 := by omega) <;>
  rcases hj' with h | h | h | h | h | h | h | h <;> subst h <;> simp

theorem rev32_byte (v : BitVec 32) (i : Nat) (h : i < 4) :
    (rev32 v).extractLsb' (8 * i) 8 = v.extractLsb' (8 * (3 - i)) 8 := by
  have : i = 0 ∨ i = 1 ∨ i = 2 ∨ i = 3 := by omega
  have f0 := ff 32 (by decide)
  apply BitVec.eq_of_getLsbD_eq
  intro j hj
  simp only [rev32, BitVec.getLsbD_extractLsb', BitVec.getLsbD_or, BitVec.getLsbD_shiftLeft, BitVec.getLsbD_ushiftRight,
    BitVec.getLsbD_and, f0]
  rcases this with h | h | h | h <;> subst h <;>
  (have hj' : j = 0 ∨ j = 1 ∨ j = 2 ∨ j = 3 ∨ j = 4 ∨ j = 5 ∨ j = 6 ∨ j = 7 := by omega) <;>
  rcases hj' with h | h | h | h | h | h | h | h <;> subst h <;> simp

theorem rev16_byte (v : BitVec 16) (i : Nat) (h : i < 2) :
    (rev16 v).extractLsb' (8 * i) 8 = v.extractLsb' (8 * (1 - i)) 8 := by
  have : i = 0 ∨ i = 1 := by omega
  have f0 := ff 16 (by decide)
  apply BitVec.eq_of_getLsbD_eq
  intro j hj
  simp only [rev16, BitVec.getLsbD_extractLsb', BitVec.getLsbD_or, BitVec.getLsbD_shiftLeft, BitVec.getLsbD_ushiftRight,
    BitVec.getLsbD_and, f0]
  rcases this with h | h <;> subst h <;>
  (have hj' : j = 0 ∨ j = 1 ∨ j = 2 ∨ j = 3 ∨ j = 4 ∨ j = 5 ∨ j = 6 ∨ j = 7 := by omega) <;>
  rcases hj' with h | h | h | h | h | h | h | h <;> subst h <;> simp

theorem rev_byte (w : Width) (v : BitVec (8 * w.n)) (i : Nat) (h : i < w.n) :
    byteAt (rev w v) i = byteAt v (w.n - 1 - i) := by
  cases w with
  | w1 =>
    have : i = 0 := by simp only [Width.n] at h; omega
    subst this; rfl
  | w2 => exact rev16_byte v i h
  | w4 => exact rev32_byte v i h
  | w8 => exact rev64_byte v i h

/-- A number is determined by its bytes. -/
theorem byte_ext {n : Nat} {a b : BitVec (8 * n)} (h : ∀ i, i < n → byteAt a i = byteAt b i) : a = b := by
  apply BitVec.eq_of_getLsbD_eq
  intro j hj
  have h1 := congrArg (fun x => x.getLsbD (j % 8)) (h (j / 8) (by omega))
  simp only [byteAt, BitVec.getLsbD_extractLsb'] at h1
  have e : 8 * (j / 8) + j % 8 = j := by omega
  simpa [e, Nat.mod_lt] using h1

theorem rev_rev (w : Width) (v : BitVec (8 * w.n)) : rev w (rev w v) = v := by
  apply byte_ext
  intro i hi
  rw [rev_byte _ _ _ hi, rev_byte _ _ _ (by omega)]
  congr 1; omega

@[simp] theorem msbFirst_length (w : Width) (v : BitVec (8 * w.n)) : (msbFirst w v).length = w.n := by simp [msbFirst]

theorem msbFirst_get {w : Width} {v : BitVec (8 * w.n)} {i : Nat} (h : i < (msbFirst w v).length) :
    (msbFirst w v)[i] = byteAt v (w.n - 1 - i) := by simp [msbFirst]

theorem msbFirst_rev (w : Width) (v : BitVec (8 * w.n)) : msbFirst w (rev w v) = (msbFirst w v).reverse := by
  apply List.ext_getElem (by simp)
  intro i h1 h2
  simp only [msbFirst_length] at h1
  rw [List.getElem_reverse, msbFirst_get, msbFirst_get, rev_byte _ _ _ (by omega)]
  simp only [msbFirst_length]

/-- The memory of an integer is its wire layout in the host's order. -/
theorem mem_eq_wire (host : Order) (w : Width) (v : BitVec (8 * w.n)) : mem host w v = wire host w v := by
  have e : (msbFirst w v).reverse = (List.range w.n).map fun i => v.extractLsb' (8 * i) 8 := by
    apply List.ext_getElem (by simp)
    intro i h1 h2
    simp only [List.length_reverse, msbFirst_length] at h1
    rw [List.getElem_reverse, msbFirst_get]
    simp only [byteAt, msbFirst_length, List.getElem_map, List.getElem_range]
    congr 2; omega
  cases host
  · exact e.symm
  · simp only [mem, wire, ← e, List.reverse_reverse]

theorem wire_convert (host o : Order) (w : Width) (v : BitVec (8 * w.n)) :
    wire host w (convert host o w v) = wire o w v := by
  cases host <;> cases o <;> simp [convert, wire, msbFirst_rev]

theorem mem_convert (host o : Order) (w : Width) (v : BitVec (8 * w.n)) : mem host w (convert host o w v) = wire o w v := by
  rw [mem_eq_wire, wire_convert]

@[simp] theorem wire_length (o : Order) (w : Width) (v : BitVec (8 * w.n)) : (wire o w v).length = w.n := by
  cases o <;> simp [wire]

@[simp] theorem mem_length (host : Order) (w : Width) (v : BitVec (8 * w.n)) : (mem host w v).length = w.n := by
  simp [mem_eq_wire]

theorem convert_back (a b : Order) (w : Width) (v : BitVec (8 * w.n)) : convert b a w (convert a b w v) = v := by
  cases a <;> cases b <;> simp [convert, rev_rev]

theorem leNat_lt (bs : List Byte) : leNat bs < 256 ^ bs.length := by
  induction bs with
  | nil => simp [leNat]
  | cons b bs ih =>
    have := b.isLt
    simp only [leNat, List.length_cons, Nat.pow_succ]
    omega

theorem leNat_digit (bs : List Byte) (i : Nat) (h : i < bs.length) : leNat bs / 256 ^ i % 256 = (bs[i]).toNat := by
  induction bs generalizing i with
  | nil => simp at h
  | cons b bs ih =>
    have hb := b.isLt
    cases i with
    | zero => simp [leNat]; omega
    | succ i =>
      simp only [List.length_cons] at h
      simp only [leNat, Nat.pow_succ, List.getElem_cons_succ]
      rw [Nat.mul_comm (256 ^ i) 256, ← Nat.div_div_eq_div_mul, show (b.toNat + 256 * leNat bs) / 256 = leNat bs by omega]
      exact ih i (by omega)

theorem leNat_byte (w : Width) (bs : List Byte) (hl : bs.length = w.n) (i : Nat) (hi : i < w.n) :
    (BitVec.ofNat (8 * w.n) (leNat bs)).extractLsb' (8 * i) 8 = bs[i] := by
  apply BitVec.eq_of_toNat_eq
  rw [BitVec.extractLsb'_toNat, BitVec.toNat_ofNat, ← leNat_digit bs i (by omega)]
  have hlt : leNat bs < 2 ^ (8 * w.n) := by
    have := leNat_lt bs
    rw [hl, show 256 = 2 ^ 8 from rfl, ← Nat.pow_mul] at this
    exact this
  rw [Nat.mod_eq_of_lt hlt, Nat.shiftRight_eq_div_pow, Nat.pow_mul]

theorem mem_ofMem (host : Order) (w : Width) (bs : List Byte) (h : bs.length = w.n) : mem host w (ofMem host w bs) = bs := by
  have key : ∀ bs : List Byte, bs.length = w.n →
      ((List.range w.n).map fun i => (BitVec.ofNat (8 * w.n) (leNat bs)).extractLsb' (8 * i) 8) = bs := by
    intro bs h
    apply List.ext_getElem (by simp [h])
    intro i h1 h2
    simp only [List.getElem_map, List.getElem_range]
    exact leNat_byte w bs h i (by omega)
  cases host with
  | le => exact key bs h
  | be =>
    simp only [mem, ofMem]
    rw [key _ (by simpa using h), List.reverse_reverse]

/-- Numbers with the same layout are equal. -/
theorem wire_inj {o : Order} {w : Width} {a b : BitVec (8 * w.n)} (h : wire o w a = wire o w b) : a = b := by
  have h' : msbFirst w a = msbFirst w b := by
    cases o
    · exact List.reverse_inj.mp h
    · exact h
  apply byte_ext
  intro i hi
  have h1 := msbFirst_get (w := w) (v := a) (i := w.n - 1 - i) (by simp; omega)
  have h2 := msbFirst_get (w := w) (v := b) (i := w.n - 1 - i) (by simp; omega)
  have e : w.n - 1 - (w.n - 1 - i) = i := by omega
  rw [e] at h1 h2
  rw [← h1, ← h2]
  simp only [h']

theorem ofMem_mem (host : Order) (w : Width) (v : BitVec (8 * w.n)) : ofMem host w (mem host w v) = v := by
  apply wire_inj (o := host)
  rw [← mem_eq_wire, mem_ofMem _ _ _ (by simp), mem_eq_wire]

/-! ### Memory -/

theorem copyTo_ok {buf : List Byte} {off : Nat} {bs : List Byte} (h : off + bs.length ≤ buf.length) :
    copyTo buf off bs = .ok (buf.take off ++ bs ++ buf.drop (off + bs.length)) := by
  induction bs generalizing buf off with
  | nil => simp [copyTo]
  | cons b bs ih =>
    simp only [List.length_cons] at h
    rw [copyTo, if_pos (by omega), ih (by simp; omega)]
    congr 1
    simp only [List.length_cons]
    rw [List.drop_set_of_lt (by omega), show off + 1 + bs.length = off + (bs.length + 1) by omega]
    rw [List.take_succ_eq_append_getElem (by simp; omega), List.take_set_of_le (Nat.le_refl off), List.getElem_set_self]
    simp

theorem copyTo_ub {buf : List Byte} {off : Nat} {bs : List Byte} (h : buf.length < off + bs.length) (hb : bs ≠ []) :
    copyTo buf off bs = .ub := by
  induction bs generalizing buf off with
  | nil => exact absurd rfl hb
  | cons b bs ih =>
    rw [copyTo]
    simp only [List.length_cons] at h
    split
    · exact ih (by simp; omega) (by rintro rfl; simp at h; omega)
    · rfl

theorem readN_ok {buf : List Byte} {off n : Nat} (h : off + n ≤ buf.length) : readN buf off n = .ok ((buf.drop off).take n) := by
  induction n generalizing off with
  | zero => simp [readN]
  | succ n ih =>
    rw [readN, List.getElem?_eq_getElem (by omega)]
    simp only [ih (off := off + 1) (by omega), Res.ok_bind]
    congr 1
    rw [List.drop_eq_getElem_cons (by omega : off < buf.length), List.take_succ_cons]

/-! ### Specialized values -/

@[simp] theorem part_length {w : Width} {v : BitVec (8 * w.n)} {size off : Nat} (h : off + size ≤ w.n) :
    (part w v size off).length = size := by simp [part]; omega

theorem take_drop_reverse {α : Type} (l : List α) (size off : Nat) (h : off + size ≤ l.length) :
    (l.reverse.drop (l.length - size - off)).take size = ((l.drop off).take size).reverse := by
  apply List.ext_getElem
  · simp; omega
  · intro i h1 h2
    simp only [List.length_take, List.length_drop, List.length_reverse] at h1 h2
    simp only [List.getElem_take, List.getElem_drop, List.getElem_reverse, List.length_take, List.length_drop]
    congr 1; omega

theorem begin_ok {s : SVal} (h : s.off + s.size ≤ s.w.n) :
    s.begin = .ok (match s.ord with | .be => s.off | .le => s.w.n - s.size - s.off) := by
  unfold SVal.begin
  cases s.ord <;> simp [h]

theorem forward_make {host ord : Order} {w : Width} {v : BitVec (8 * w.n)} {size off : Nat} (h : off + size ≤ w.n) :
    (SVal.make host ord w v size off).forward host = .ok (wirePart ord w v size off) := by
  rw [SVal.forward, begin_ok h]
  simp only [SVal.make, Res.ok_bind, mem_convert]
  cases ord
  · simp only [wire, wirePart, part]
    have := take_drop_reverse (msbFirst w v) size off (by simpa using h)
    rw [msbFirst_length] at this
    rw [this]
  · rfl

theorem backward_make {host ord : Order} {w : Width} {v : BitVec (8 * w.n)} {size off : Nat} (h : off + size ≤ w.n) :
    (SVal.make host ord w v size off).backward host = .ok (wirePart ord w v size off).reverse := by
  have h1 := forward_make (host := host) (ord := ord) (v := v) h
  rw [SVal.forward, begin_ok h] at h1
  rw [SVal.backward, begin_ok h]
  simp only [Res.ok_bind, Res.ok.injEq] at h1 ⊢
  rw [h1]

@[simp] theorem wirePart_length {o : Order} {w : Width} {v : BitVec (8 * w.n)} {size off : Nat} (h : off + size ≤ w.n) :
    (wirePart o w v size off).length = size := by cases o <;> simp [wirePart, h]

/-- Whatever the order of the specialized value, the serializer writes the selected bytes in its own order. -/
theorem special_put {host ord wo : Order} {s : Ser} {w : Width} {v : BitVec (8 * w.n)} {size off : Nat} (h : off + size ≤ w.n) :
    s.special host ord (SVal.make host wo w v size off) = s.put (wirePart ord w v size off) := by
  unfold Ser.special
  by_cases e : wo = ord
  · subst e
    rw [if_pos (by rfl), forward_make h]; rfl
  · rw [if_neg (by exact e), backward_make h]
    simp only [Res.ok_bind]
    congr 1
    cases wo <;> cases ord <;> simp_all [wirePart]

theorem put_ok {s : Ser} {bs : List Byte} (h : s.off + bs.length ≤ s.data.length) :
    s.put bs = .ok (⟨s.data.take s.off ++ bs ++ s.data.drop (s.off + bs.length), s.off + bs.length⟩, bs.length) := by
  rw [Ser.put, copyTo_ok h]; rfl

/-- Splicing the selected bytes into memory patches the logical value. -/
theorem patch_ok {ro : Order} {w : Width} {v v0 r : BitVec (8 * w.n)} {size off : Nat} (h : off + size ≤ w.n) {b : Nat}
    (hb : b = match ro with | .be => off | .le => w.n - size - off)
    (hr : wire ro w r = (wire ro w v0).take b ++ wirePart ro w v size off ++ (wire ro w v0).drop (b + size)) :
    Patched w v0 v size off r := by
  have hm : msbFirst w r = (msbFirst w v0).take off ++ part w v size off ++ (msbFirst w v0).drop (off + size) := by
    cases ro
    · simp only at hb
      subst hb
      simp only [wire, wirePart] at hr
      have hr := congrArg List.reverse hr
      simp only [List.reverse_reverse, List.reverse_append, List.reverse_take, List.reverse_drop,
        List.length_reverse, msbFirst_length] at hr
      rw [hr, List.append_assoc]
      congr 2
      · omega
      · congr 1; omega
    · simp only at hb
      subst hb
      exact hr
  intro i hi
  have h1 := msbFirst_get (w := w) (v := r) (i := w.n - 1 - i) (by simp; omega)
  have e : w.n - 1 - (w.n - 1 - i) = i := by omega
  rw [e] at h1
  have key : ∀ (L : List Byte), msbFirst w r = L → ∀ hl : w.n - 1 - i < L.length, byteAt r i = L[w.n - 1 - i] := by
    rintro L rfl hl; exact h1.symm
  rw [key _ hm (by rw [← hm]; simp; omega)]
  by_cases c1 : w.n - 1 - i < off
  · rw [List.getElem_append_left (by simp [h]; omega), List.getElem_append_left (by simp; omega), List.getElem_take, msbFirst_get, if_neg (by omega), e]
  · by_cases c2 : w.n - 1 - i < off + size
    · rw [List.getElem_append_left (by simp [h]; omega), List.getElem_append_right (by simp; omega), if_pos (by omega)]
      simp only [part, List.getElem_take, List.getElem_drop]
      rw [msbFirst_get]
      congr 1
      simp only [List.length_take, msbFirst_length]
      omega
    · rw [List.getElem_append_right (by simp [h]; omega), if_neg (by omega), List.getElem_drop, msbFirst_get]
      congr 1
      simp [h]; omega

/-- Reading one field off data that carries its layout. -/
theorem getOne_ok {host ord : Order} {f : Field} (hf : f.inside) {data : List Byte} {off : Nat} {rest : List Byte}
    (h : data.drop off = f.wire ord ++ rest) :
    ∃ r, getOne host ord ⟨data, off⟩ f = .ok (⟨data, off + f.len⟩, f.len, r) ∧ f.received r := by
  have hlen := congrArg List.length h
  cases f with
  | whole w v =>
    simp only [Field.wire, List.length_drop, List.length_append, wire_length] at hlen
    have hn : 0 < w.n := by cases w <;> decide
    simp only [getOne, De.whole]
    rw [readN_ok (by omega), h]
    simp only [Res.ok_bind, Field.wire]
    refine ⟨_, rfl, ?_⟩
    rw [List.take_append_of_le_length (by simp), List.take_of_length_le (by simp), ← mem_convert host, ofMem_mem, convert_back]
    rfl
  | part w v v0 size o wo ro =>
    have hf : o + size ≤ w.n := hf
    simp only [Field.wire, List.length_drop, List.length_append, wirePart_length hf] at hlen
    have hrd : readN data off size = .ok (wirePart ord w v size o) := by
      by_cases hz : size = 0
      · subst hz
        have : wirePart ord w v 0 o = [] := List.eq_nil_of_length_eq_zero (wirePart_length hf)
        rw [this]; rfl
      · rw [readN_ok (by omega), h]
        simp only [Field.wire]
        rw [List.take_append_of_le_length (by simp [hf]), List.take_of_length_le (by simp [hf])]
    simp only [getOne, De.special]
    rw [begin_ok (s := SVal.make host ro w v0 size o) hf]
    have hbs : (if (SVal.make host ro w v0 size o).ord = ord then wirePart ord w v size o else
        (wirePart ord w v size o).reverse) = wirePart ro w v size o := by
      cases ro <;> cases ord <;> simp [wirePart, SVal.make]
    have hrd' : readN data off (SVal.make host ro w v0 size o).size = .ok (wirePart ord w v size o) := hrd
    simp only [Res.ok_bind, hrd', hbs]
    simp only [SVal.make]
    rw [mem_convert]
    generalize hb : (match ro with | .be => o | .le => w.n - size - o) = b
    have hbl : b + size ≤ w.n := by cases ro <;> simp only at hb <;> omega
    rw [copyTo_ok (by simpa [hf] using hbl)]
    simp only [Res.ok_bind, wirePart_length hf]
    refine ⟨_, rfl, _, rfl, ?_⟩
    refine patch_ok (ro := ro) hf hb.symm ?_
    rw [← mem_convert host ro w, convert_back, mem_ofMem]
    simp [hf]; omega

end Flame.Bytes
