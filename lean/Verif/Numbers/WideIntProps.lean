import Verif.Numbers.WideInt
import Verif.Bytes.Lemmas

/-!
# Properties of wide integers (C26, C64, C65, C66, C67)
-/

namespace Flame
namespace WideSpec
open BytesSpec

/-- The number that bytes denote, most significant first. -/
def num (bs : List Byte) : Nat := bs.foldl (fun a b => a * 256 + b.toNat) 0

/-- What a compound operator must compute on `n`-byte unsigned numbers. -/
def meaning (n : Nat) : Wide.Compound → Nat → Nat → Nat
  | .shl, a, b => a * 2 ^ b % 256 ^ n
  | .shr, a, b => a / 2 ^ b
  | .and, a, b => a &&& b
  | .or, a, b => a ||| b
  | .add, a, b => (a + b) % 256 ^ n
  | .sub, a, b => (a + (256 ^ n - b)) % 256 ^ n
  | .mul, a, b => a * b % 256 ^ n
  | .div, a, b => a / b

end WideSpec

open Bytes BytesSpec Wide WideSpec

namespace Wide

theorem foldl_num (bs : List Byte) (a : Nat) : bs.foldl (fun a b => a * 256 + b.toNat) a = a * 256 ^ bs.length + num bs := by
  induction bs generalizing a with
  | nil => simp [num]
  | cons b bs ih =>
    have e : num (b :: bs) = b.toNat * 256 ^ bs.length + num bs := by
      rw [num, List.foldl_cons, ih]; simp
    rw [List.foldl_cons, ih, e, List.length_cons, Nat.pow_succ, Nat.add_mul, Nat.mul_assoc, Nat.mul_comm 256]
    omega

theorem num_append (a b : List Byte) : num (a ++ b) = num a * 256 ^ b.length + num b := by
  rw [num, List.foldl_append, foldl_num, ← num]

theorem num_cons (b : Byte) (bs : List Byte) : num (b :: bs) = b.toNat * 256 ^ bs.length + num bs := by
  have := num_append [b] bs
  simpa [num] using this

theorem num_eq_leNat (bs : List Byte) : num bs = leNat bs.reverse := by
  have key : ∀ l : List Byte, num l.reverse = leNat l := by
    intro l
    induction l with
    | nil => rfl
    | cons b l ih =>
      rw [List.reverse_cons, num_append, leNat, ih]
      simp [num]; omega
  rw [← key, List.reverse_reverse]

theorem num_lt (bs : List Byte) : num bs < 256 ^ bs.length := by
  rw [num_eq_leNat]
  simpa using leNat_lt bs.reverse

theorem num_zeros (k : Nat) : num (List.replicate k 0#8) = 0 := by
  induction k with
  | zero => rfl
  | succ k ih => rw [List.replicate_succ, num_cons, ih]; simp

theorem num_drop (bs : List Byte) (k : Nat) (h : k ≤ bs.length) : num (bs.drop k) = num bs % 256 ^ (bs.length - k) := by
  have e := num_append (bs.take k) (bs.drop k)
  rw [List.take_append_drop] at e
  have hlt := num_lt (bs.drop k)
  rw [List.length_drop] at e hlt
  rw [e, Nat.add_comm, Nat.add_mul_mod_self_right, Nat.mod_eq_of_lt hlt]

theorem two_pow (n : Nat) : 2 ^ (8 * n) = 256 ^ n := by rw [Nat.pow_mul]

theorem num_msbFirst (w : Width) (v : BitVec (8 * w.n)) : num (msbFirst w v) = v.toNat := by
  have h1 := ofMem_mem .le w v
  rw [mem_eq_wire] at h1
  have h2 := congrArg BitVec.toNat h1
  simp only [ofMem, wire, BitVec.toNat_ofNat] at h2
  rw [num_eq_leNat, ← h2, Nat.mod_eq_of_lt]
  have := leNat_lt (msbFirst w v).reverse
  rw [two_pow]
  simpa using this

theorem valOff_add (n s : Nat) : valOff n s + valSize n s = s := by
  unfold valOff valSize; split <;> omega

theorem serOff_add (n s : Nat) (h : s ≤ n) : serOff n s = n - s ∧ valSize n s = s ∧ valOff n s = 0 := by
  simp [serOff, valOff, valSize, h]

theorem serOff_lt (n s : Nat) (h : n < s) : serOff n s = 0 ∧ valSize n s = n ∧ valOff n s = s - n := by
  have h' : ¬ s ≤ n := by omega
  have h2 : s - n ≠ 0 := by omega
  simp [serOff, valOff, valSize, h', h2]

theorem make_host (host : Order) (w : Width) (v : BitVec (8 * w.n)) (size off : Nat) :
    (⟨host, w, v, size, off⟩ : SVal) = SVal.make host host w v size off := by
  cases host <;> simp [SVal.make, convert]

/-- `operatorInit` in closed form. -/
theorem operatorInit_ok (host : Order) (bs : List Byte) (w : Width) (v : BitVec (8 * w.n)) :
    operatorInit host bs w v = .ok (bs.take (bs.length - w.n) ++ (msbFirst w v).drop (w.n - bs.length)) := by
  unfold operatorInit
  simp only [make_host]
  have h1 := valOff_add bs.length w.n
  rw [special_put (by omega)]
  by_cases h : w.n ≤ bs.length
  · obtain ⟨a, b, c⟩ := serOff_add _ _ h
    rw [put_ok (by simp only [a, b, c]; rw [wirePart_length (by omega)]; omega)]
    simp only [Res.ok_bind, a, b, c, wirePart, part, wirePart_length]
    rw [List.drop_zero, List.take_of_length_le (l := msbFirst w v) (by simp), msbFirst_length, Nat.sub_eq_zero_of_le h,
      List.drop_zero, List.drop_eq_nil_of_le (as := bs) (by omega), List.append_nil]
  · obtain ⟨a, b, c⟩ := serOff_lt _ _ (Nat.lt_of_not_le h)
    rw [put_ok (by simp only [a, b, c]; rw [wirePart_length (by omega)]; omega)]
    simp only [Res.ok_bind, a, b, c, wirePart, part]
    rw [List.take_of_length_le (l := (msbFirst w v).drop _) (by simp; omega), show bs.length - w.n = 0 by omega,
      List.drop_eq_nil_of_le (as := bs) (by rw [List.length_drop, msbFirst_length]; omega), List.append_nil]

/-- Conversion in closed form. -/
theorem toPrim_ok (host : Order) (bs : List Byte) (w : Width) :
    ∃ r, toPrim host bs w = .ok r ∧ r.toNat = num bs % 256 ^ w.n := by
  -- the bytes that end up in the value
  have hL : ∃ L : List Byte, L.length = w.n ∧ num L = num bs % 256 ^ w.n ∧
      (L.drop (valOff bs.length w.n)).take (valSize bs.length w.n) = bs.drop (serOff bs.length w.n) ∧
      ∀ i, i < valOff bs.length w.n → L[i]? = some 0#8 := by
    by_cases h : w.n ≤ bs.length
    · obtain ⟨a, b, c⟩ := serOff_add _ _ h
      refine ⟨bs.drop (bs.length - w.n), by simp; omega, ?_, ?_, by simp [c]⟩
      · rw [num_drop _ _ (by omega)]; congr 2; omega
      · rw [a, b, c, List.drop_zero, List.take_of_length_le (by simp; omega)]
    · obtain ⟨a, b, c⟩ := serOff_lt _ _ (Nat.lt_of_not_le h)
      refine ⟨List.replicate (w.n - bs.length) 0#8 ++ bs, by simp; omega, ?_, ?_, ?_⟩
      · rw [num_append, num_zeros, Nat.mod_eq_of_lt]
        · simp
        · exact Nat.lt_of_lt_of_le (num_lt bs) (Nat.pow_le_pow_right (by omega) (by omega))
      · rw [a, b, c]; simp
      · intro i hi
        rw [c] at hi
        rw [List.getElem?_append_left (by simpa using hi), List.getElem?_replicate, if_pos hi]
  obtain ⟨L, hlen, hnum, hsel, hz⟩ := hL
  have hv : msbFirst w (ofMem .be w L) = L := by
    have := mem_ofMem .be w L hlen
    rw [mem_eq_wire] at this
    exact this
  have hadd := valOff_add bs.length w.n
  obtain ⟨r, a, b⟩ := getOne_ok (host := host) (ord := .be)
    (f := .part w (ofMem .be w L) 0 (valSize bs.length w.n) (valOff bs.length w.n) host host)
    (by simp only [Field.inside]; omega) (data := bs) (off := serOff bs.length w.n) (rest := [])
    (by simp only [Field.wire, wirePart, part, hv, List.append_nil]; exact hsel.symm)
  obtain ⟨x, hx, hp⟩ := b
  have hxv : x = ofMem .be w L := by
    apply byte_ext
    intro i hi
    rw [hp i hi]
    by_cases hc : w.n ≤ i + valOff bs.length w.n + valSize bs.length w.n ∧ i + valOff bs.length w.n < w.n
    · rw [if_pos hc]
    · rw [if_neg hc]
      have hi2 : w.n - 1 - i < valOff bs.length w.n := by omega
      have h0 := hz _ hi2
      rw [← hv, List.getElem?_eq_getElem (by simp; omega), msbFirst_get] at h0
      rw [show w.n - 1 - (w.n - 1 - i) = i by omega] at h0
      rw [Option.some.inj h0]
      simp [byteAt]
  refine ⟨ofMem .be w L, ?_, by rw [← num_msbFirst, hv, hnum]⟩
  unfold toPrim
  simp only [make_host]
  simp only [getOne, De.special] at a
  unfold De.special
  obtain ⟨q, hq1, hq2⟩ := Res.bind_eq_ok.mp a
  obtain ⟨b, hb1, hb2⟩ := Res.bind_eq_ok.mp hq1
  obtain ⟨l, hl1, hl2⟩ := Res.bind_eq_ok.mp hb2
  obtain ⟨m, hm1, hm2⟩ := Res.bind_eq_ok.mp hl2
  rw [hb1, Res.ok_bind, hl1, Res.ok_bind, hm1]
  simp only [Res.ok.injEq] at hm2
  subst hm2
  simp only [Res.ok.injEq, Prod.mk.injEq] at hq2
  have hq3 := hq2.2.2
  rw [hx] at hq3
  simp only [SVal.make, Value.mk.injEq, heq_eq_eq, true_and] at hq3
  have e : convert host host w (ofMem host w m) = ofMem host w m := by cases host <;> rfl
  rw [e] at hq3
  simp only [Res.ok_bind, SVal.make, hq3, hxv, BitVec.setWidth_eq]

theorem reset_eq (bs : List Byte) : reset bs = List.replicate bs.length 0#8 := by
  simp [reset, List.map_const']

theorem assign_ok (host : Order) (bs : List Byte) (w : Width) (v : BitVec (8 * w.n)) :
    ∃ bs', assign host bs w v = .ok bs' ∧ bs'.length = bs.length ∧ num bs' = v.toNat % 256 ^ bs.length := by
  refine ⟨_, operatorInit_ok host (reset bs) w v, ?_, ?_⟩
  · simp [reset_eq]; omega
  · rw [num_append, reset_eq, List.take_replicate, num_zeros, num_drop _ _ (by simp), num_msbFirst]
    simp only [List.length_replicate, msbFirst_length, Nat.zero_mul, Nat.zero_add]
    by_cases h : w.n ≤ bs.length
    · have hv := v.isLt
      rw [two_pow] at hv
      rw [Nat.mod_eq_of_lt (by rwa [show w.n - (w.n - bs.length) = w.n by omega]), Nat.mod_eq_of_lt]
      exact Nat.lt_of_lt_of_le hv (Nat.pow_le_pow_right (by omega) h)
    · congr 2; omega

end Wide

/-- **C26 (value).** Assigning an unsigned integer of any size to a wide integer of any width stores exactly the number,
reduced modulo the wide integer's range; every byte not needed is zero (the stored number is that small). -/
theorem C26_assign_value (host : Order) (bs : List Byte) (w : Width) (v : BitVec (8 * w.n)) :
    ∃ bs', assign host bs w v = .ok bs' ∧ bs'.length = bs.length ∧ num bs' = v.toNat % 256 ^ bs.length ∧
      (∀ i, i + w.n < bs.length → bs'[i]? = some 0#8) := by
  obtain ⟨bs', a, b, c⟩ := assign_ok host bs w v
  refine ⟨bs', a, b, c, ?_⟩
  intro i hi
  unfold assign at a
  rw [operatorInit_ok, reset_eq] at a
  simp only [Res.ok.injEq, List.length_replicate] at a
  subst a
  rw [List.getElem?_append_left (by simp; omega)]
  simp [List.getElem?_take, List.getElem?_replicate]
  omega

/-- **C26 (round trip).** If the wide integer is at least as wide, reading back gives the value. -/
theorem C26_round_trip (host : Order) (bs : List Byte) (w : Width) (v : BitVec (8 * w.n)) (h : w.n ≤ bs.length) :
    (assign host bs w v >>= fun bs' => toPrim host bs' w) = .ok v := by
  obtain ⟨bs', a, _, c⟩ := assign_ok host bs w v
  obtain ⟨r, d, e⟩ := toPrim_ok host bs' w
  rw [a, Res.ok_bind, d]
  congr 1
  apply BitVec.eq_of_toNat_eq
  have hv := v.isLt
  rw [two_pow] at hv
  rw [e, c, Nat.mod_eq_of_lt (Nat.lt_of_lt_of_le hv (Nat.pow_le_pow_right (by omega) h)), Nat.mod_eq_of_lt hv]

/-- **C26 (conversion).** Converting to an unsigned integer of any size gives the number modulo that size. -/
theorem C26_convert_value (host : Order) (bs : List Byte) (w : Width) :
    ∃ r, toPrim host bs w = .ok r ∧ r.toNat = num bs % 256 ^ w.n := toPrim_ok host bs w

/-- **C26 (complement).** `~` gives the ones' complement of the whole number; twice it is the identity. -/
theorem C26_complement (bs : List Byte) :
    num (compl bs) + num bs + 1 = 256 ^ bs.length ∧ compl (compl bs) = bs := by
  constructor
  · induction bs with
    | nil => simp [compl, num]
    | cons b bs ih =>
      have e : compl (b :: bs) = ~~~ b :: compl bs := rfl
      have hl : (compl bs).length = bs.length := by simp [compl]
      rw [e, num_cons, num_cons, hl, List.length_cons, Nat.pow_succ, ← ih]
      have hb : (~~~ b).toNat = 255 - b.toNat := by rw [BitVec.toNat_not]
      have := b.isLt
      rw [hb]
      have hm : (255 - b.toNat) * 256 ^ bs.length + b.toNat * 256 ^ bs.length = 255 * 256 ^ bs.length := by
        rw [← Nat.add_mul]; congr 1; omega
      rw [← ih] at hm
      omega
  · unfold compl
    rw [List.map_map]
    conv => rhs; rw [← List.map_id bs]
    apply List.map_congr_left
    intro b _
    simp

example : (2 : Nat) ≤ ([7#8, 8#8, 9#8] : List Byte).length ∧ num (compl [1#8, 2#8]) = 65277 ∧
    countBytes 40 = 5 ∧ countBytes 41 = 6 := by decide

/-- **C64_partial.** A non-negative signed value assigned to a wide integer reads back with the same value through every
signed type at least as wide that fits the wide integer.  Missing: negative values, see below. -/
theorem C64_signed_value_partial (host : Order) (bs : List Byte) (w w' : Width) (v : BitVec (8 * w.n)) (hw : w.n ≤ w'.n)
    (hn : w'.n ≤ bs.length) (h0 : 0 ≤ v.toInt) :
    ∃ r : BitVec (8 * w'.n), (assign host bs w v >>= fun bs' => toPrim host bs' w') = .ok r ∧ r.toInt = v.toInt := by
  obtain ⟨bs', a, _, c⟩ := assign_ok host bs w v
  obtain ⟨r, d, e⟩ := toPrim_ok host bs' w'
  refine ⟨r, by rw [a, Res.ok_bind, d], ?_⟩
  have hv := v.isLt
  rw [two_pow] at hv
  have h1 := Nat.pow_le_pow_right (n := 256) (by omega) hw
  have h2 := Nat.pow_le_pow_right (n := 256) (by omega) hn
  have hr : r.toNat = v.toNat := by
    rw [e, c, Nat.mod_eq_of_lt (a := v.toNat) (by omega), Nat.mod_eq_of_lt (by omega)]
  rw [BitVec.toInt_eq_toNat_cond] at h0 ⊢
  rw [BitVec.toInt_eq_toNat_cond]
  rw [two_pow] at h0 ⊢
  rw [two_pow, hr]
  split at h0
  · rename_i hc
    rw [if_pos hc, if_pos (by omega)]
  · omega

/-- **C64, violated.** A negative value read back through a wider signed type becomes positive: it is zero extended. -/
theorem C64_negative_violated (host : Order) (bs : List Byte) (w w' : Width) (v : BitVec (8 * w.n)) (hw : w.n < w'.n)
    (hn : w'.n ≤ bs.length) (h0 : v.toInt < 0) :
    ∃ r : BitVec (8 * w'.n), (assign host bs w v >>= fun bs' => toPrim host bs' w') = .ok r ∧
      r.toInt = v.toInt + 256 ^ w.n := by
  obtain ⟨bs', a, _, c⟩ := assign_ok host bs w v
  obtain ⟨r, d, e⟩ := toPrim_ok host bs' w'
  refine ⟨r, by rw [a, Res.ok_bind, d], ?_⟩
  have hv := v.isLt
  rw [two_pow] at hv
  have h1 := Nat.pow_le_pow_right (n := 256) (by omega) (show w.n + 1 ≤ w'.n from hw)
  rw [Nat.pow_succ] at h1
  have h2 := Nat.pow_le_pow_right (n := 256) (by omega) hn
  have hr : r.toNat = v.toNat := by
    rw [e, c, Nat.mod_eq_of_lt (a := v.toNat) (by omega), Nat.mod_eq_of_lt (by omega)]
  rw [BitVec.toInt_eq_toNat_cond] at h0 ⊢
  rw [BitVec.toInt_eq_toNat_cond]
  rw [two_pow] at h0 ⊢
  rw [two_pow, hr]
  split at h0
  · omega
  · rename_i hc
    rw [if_neg hc, if_pos (by omega)]
    have : ((256 ^ w.n : Nat) : Int) = 256 ^ w.n := by simp
    omega

example : Width.w2.n < Width.w8.n ∧ Width.w8.n ≤ 16 ∧ (0xFFFF#16).toInt < 0 ∧ (0 : Int) ≤ (0x7FFF#16).toInt := by decide

/-- **C65_partial.** A constructed wide integer reads back correctly through types no wider than the initializer; through
the others it depends on the indeterminate bytes. -/
theorem C65_constructed_value_partial (host : Order) (junk : List Byte) (w w' : Width) (v : BitVec (8 * w.n)) (hw : w'.n ≤ w.n)
    (hn : w.n ≤ junk.length) :
    ∃ r : BitVec (8 * w'.n), (ctor host junk w v >>= fun bs' => toPrim host bs' w') = .ok r ∧ r.toNat = v.toNat % 256 ^ w'.n := by
  have a := operatorInit_ok host junk w v
  rw [Nat.sub_eq_zero_of_le hn, List.drop_zero] at a
  obtain ⟨r, d, e⟩ := toPrim_ok host (junk.take (junk.length - w.n) ++ msbFirst w v) w'
  refine ⟨r, by rw [ctor, a, Res.ok_bind, d], ?_⟩
  rw [e, num_append, num_msbFirst, msbFirst_length]
  obtain ⟨k, hk⟩ := Nat.pow_dvd_pow 256 hw
  rw [hk, Nat.mul_left_comm, Nat.mul_add_mod]

/-- **C65, violated.** Constructing is not assigning: whenever the wide integer is wider than the initializer, there is
memory content for which the constructed number differs from the assigned one. -/
theorem C65_constructed_violated (host : Order) (n : Nat) (w : Width) (v : BitVec (8 * w.n)) (hn : w.n < n) :
    ∃ junk : List Byte, junk.length = n ∧ ∃ c a, ctor host junk w v = .ok c ∧ assign host junk w v = .ok a ∧ num c ≠ num a := by
  refine ⟨List.replicate n 1#8, by simp, _, _, operatorInit_ok .., operatorInit_ok .., ?_⟩
  rw [num_append, num_append, reset_eq]
  simp only [List.length_replicate, List.take_replicate, num_zeros]
  rw [show min (n - w.n) n = (n - w.n - 1) + 1 by omega, List.replicate_succ, num_cons]
  have hp : 0 < 256 ^ ((msbFirst w v).drop (w.n - n)).length := Nat.pow_pos (by omega)
  have hq : 0 < 256 ^ (List.replicate (n - w.n - 1) 1#8).length := Nat.pow_pos (by omega)
  have := Nat.mul_pos (show 0 < (1#8).toNat * 256 ^ (List.replicate (n - w.n - 1) 1#8).length + num (List.replicate (n - w.n - 1) 1#8) by
    simp only [BitVec.reduceToNat]; omega) hp
  omega

example : Width.w1.n ≤ Width.w4.n ∧ Width.w4.n ≤ 5 ∧ Width.w4.n < 5 := by decide

/-- **C66, violated.** `~x` changes `x` itself: after the call the operand never has its old value. -/
theorem C66_complement_operand_violated (bs : List Byte) (h : bs ≠ []) : num (compl bs) ≠ num bs := by
  have h1 := (C26_complement bs).1
  intro e
  rw [e] at h1
  cases bs with
  | nil => exact h rfl
  | cons b bs =>
    rw [List.length_cons, Nat.pow_succ] at h1
    omega

example : ([1#8, 2#8] : List Byte) ≠ [] := by decide

/-- **C67, violated.** None of the compound operators computes anything: for each there are operands of every width for
which the result is not the one required. -/
theorem C67_compound_violated (op : Compound) (n : Nat) (hn : 0 < n) :
    ∃ a b : List Byte, a.length = n ∧ b.length = n ∧ 0 < num b ∧ num (compound op a b) ≠ meaning n op (num a) (num b) := by
  obtain ⟨m, rfl⟩ : ∃ m, n = m + 1 := ⟨n - 1, by omega⟩
  have key : ∀ x : Byte, num (List.replicate m 0#8 ++ [x]) = x.toNat := by
    intro x; rw [num_append, num_zeros]; simp [num]
  have hp : 0 < 256 ^ m := Nat.pow_pos (by omega)
  have h256 : 256 ≤ 256 ^ (m + 1) := by rw [Nat.pow_succ]; omega
  have hmod : ∀ k, k < 256 → k % 256 ^ (m + 1) = k := fun k hk => Nat.mod_eq_of_lt (by omega)
  have fin : ∀ x y : Byte, 0 < y.toNat → x.toNat ≠ meaning (m + 1) op x.toNat y.toNat →
      ∃ a b : List Byte, a.length = m + 1 ∧ b.length = m + 1 ∧ 0 < num b ∧
        num (compound op a b) ≠ meaning (m + 1) op (num a) (num b) := by
    intro x y hy hne
    refine ⟨List.replicate m 0#8 ++ [x], List.replicate m 0#8 ++ [y], by simp, by simp, ?_, ?_⟩
    · rw [key]; exact hy
    · rw [compound, key, key]; exact hne
  cases op
  · exact fin 1#8 1#8 (by decide) (by simp [meaning, hmod])
  · exact fin 1#8 1#8 (by decide) (by simp [meaning])
  · exact fin 1#8 2#8 (by decide) (by simp [meaning])
  · exact fin 1#8 2#8 (by decide) (by simp [meaning])
  · exact fin 1#8 1#8 (by decide) (by simp [meaning, hmod])
  · refine fin 1#8 1#8 (by decide) ?_
    simp only [meaning, BitVec.reduceToNat]
    rw [show 1 + (256 ^ (m + 1) - 1) = 256 ^ (m + 1) by omega, Nat.mod_self]
    decide
  · exact fin 1#8 2#8 (by decide) (by simp [meaning, hmod])
  · exact fin 1#8 2#8 (by decide) (by simp [meaning])

namespace Flame
open Bytes BytesSpec Wide WideSpec
example := C26_assign_value .le [7#8, 8#8, 9#8] .w2 0xABCD#16
example := C26_round_trip .le [7#8, 8#8, 9#8] .w2 0xABCD#16 (by decide)
example := C26_convert_value .le [7#8, 8#8, 9#8] .w2
example := C64_signed_value_partial .le (List.replicate 16 0#8) .w2 .w8 0x7FFF#16 (by decide) (by decide) (by decide)
example := C65_constructed_value_partial .le (List.replicate 5 7#8) .w4 .w1 0x12345678#32 (by decide) (by decide)
example := C67_compound_violated .shl 4 (by decide)
end Flame

end Flame
