import Verif.Numbers.ToStringProps
import Verif.Numbers.WideIntProps

/-! # Exactly which integers are printed (C25) and which values a wide integer keeps (C64, C65) -/

namespace Flame

section Text
open ToStr ToStrSpec

/-- The text of -128 as an 8-bit value, whatever the number of steps allowed. -/
theorem least8_text (f : Nat) : (convert ⟨true, 8⟩ (f + 1) (-128) >>= Str.chars) = .ok [45#8, 138#8, 56#8, 56#8] := by
  rfl

theorem least16_text (f : Nat) : (convert ⟨true, 16⟩ (f + 1) (-32768) >>= Str.chars) = .ok [45#8, 247#8, 56#8, 56#8, 52#8, 56#8] := by
  rfl

/-- Decimal digits are characters between `0` and `9`. -/
theorem natText_digits {v : Nat} {t : List (BitVec 8)} (h : NatText v t) : ∀ c ∈ t, c.toNat ≤ 57 := by
  obtain ⟨ds, rfl, hd, _⟩ := h
  intro c hc
  obtain ⟨d, hm, rfl⟩ := List.mem_map.mp hc
  have := hd d hm
  simp only [BitVec.toNat_ofNat]
  omega

/-- A text with a character beyond `9` after its sign is not the text of any negative number. -/
theorem not_intText {v : Int} (hv : v < 0) {c : BitVec 8} {u : List (BitVec 8)} (hc : 57 < c.toNat) :
    ¬ IntText v (45#8 :: c :: u) := by
  unfold IntText
  rw [if_pos hv]
  rintro ⟨w, hw, hn⟩
  injection hw with _ hw
  subst hw
  have := natText_digits hn c List.mem_cons_self
  omega

/-- **C25 (exact).** For the integer types of C++: the conversion of a value yields its canonical decimal text exactly when the
value is negative or has more than one digit, and is not the least value of a signed type. -/
theorem C25_exact (t : Ty) (hb : t.bits ∈ [8, 16, 32, 64]) (v : Int) (h : t.has v) (f : Nat) :
    (∃ s text, convert t (f + 1) v = .ok s ∧ Str.chars s = .ok text ∧ IntText v text) ↔
      (v < 0 ∨ 9 < v) ∧ ¬ (t.signed = true ∧ v = -(2 ^ (t.bits - 1) : Int)) := by
  constructor
  · rintro ⟨s, text, hs, hc, ht⟩
    refine ⟨?_, ?_⟩
    · by_cases h0 : v < 0 ∨ 9 < v
      · exact h0
      · rw [C25_one_digit_violated t v (by omega) (by omega)] at hs; cases hs
    · rintro ⟨hsg, hv⟩
      obtain ⟨sg, b⟩ := t
      simp only at hsg hv hb
      subst hsg
      by_cases hw : 32 ≤ b
      · rw [hv, C25_least_violated b hw] at hs; cases hs
      · have hb' : b = 8 ∨ b = 16 := by
          simp only [List.mem_cons, List.not_mem_nil, or_false] at hb
          omega
        rcases hb' with rfl | rfl
        · have e := least8_text f
          have hv' : v = -128 := by simpa using hv
          subst hv'
          rw [hs] at e
          have e' : Str.chars s = .ok [45#8, 138#8, 56#8, 56#8] := e
          rw [hc] at e'
          injection e' with e'
          subst e'
          exact not_intText (by decide) (by decide) ht
        · have e := least16_text f
          have hv' : v = -32768 := by simpa using hv
          subst hv'
          rw [hs] at e
          have e' : Str.chars s = .ok [45#8, 247#8, 56#8, 56#8, 52#8, 56#8] := e
          rw [hc] at e'
          injection e' with e'
          subst e'
          exact not_intText (by decide) (by decide) ht
  · rintro ⟨hd, hm⟩
    have hb' : 0 < t.bits ∧ t.bits ≤ 64 := by
      simp only [List.mem_cons, List.not_mem_nil, or_false] at hb
      omega
    obtain ⟨s, text, hs, hc, _, ht, _⟩ := C25_to_string_partial t hb'.1 hb'.2 v h hd (fun a b => hm ⟨a, b⟩) f
    exact ⟨s, text, hs, hc, ht⟩

/-- -127 as an 8-bit value meets the condition, 7 does not. -/
example : ((-127 : Int) < 0 ∨ 9 < (-127 : Int)) ∧ ¬ ((true : Bool) = true ∧ (-127 : Int) = -(2 ^ (8 - 1))) ∧
    ¬ ((7 : Int) < 0 ∨ 9 < (7 : Int)) := by decide

end Text

section Wide
open Bytes BytesSpec Wide WideSpec

theorem width_n_inj {w w' : Width} (h : w.n = w'.n) : w = w' := by
  cases w <;> cases w' <;> first | rfl | (simp [Width.n] at h)

/-- **C64 (exact).** A signed value assigned to a wide integer and read through a signed type at least as wide keeps its value
exactly when it is not negative or the two types are equally wide. -/
theorem C64_exact (host : Order) (bs : List Byte) (w w' : Width) (v : BitVec (8 * w.n)) (hw : w.n ≤ w'.n) (hn : w'.n ≤ bs.length) :
    (∃ r : BitVec (8 * w'.n), (assign host bs w v >>= fun bs' => toPrim host bs' w') = .ok r ∧ r.toInt = v.toInt) ↔
      0 ≤ v.toInt ∨ w = w' := by
  constructor
  · rintro ⟨r, hr, hv⟩
    by_cases h0 : 0 ≤ v.toInt
    · exact .inl h0
    · by_cases he : w.n = w'.n
      · exact .inr (width_n_inj he)
      · obtain ⟨r', hr', hv'⟩ := C64_negative_violated host bs w w' v (by omega) hn (by omega)
        rw [hr] at hr'
        injection hr' with hr'
        subst hr'
        have hp : (0 : Int) < 256 ^ w.n := Int.pow_pos (by decide)
        omega
  · rintro (h0 | rfl)
    · exact C64_signed_value_partial host bs w w' v hw hn h0
    · exact ⟨v, C26_round_trip host bs w v hn, rfl⟩

/-- **C65 (exact).** A wide integer of `n` bytes constructed from a value denotes, whatever memory it occupies, the number it
denotes when assigned that value, exactly when the value's type fills it. -/
theorem C65_exact (host : Order) (n : Nat) (w : Width) (v : BitVec (8 * w.n)) :
    (∀ junk : List Byte, junk.length = n → ∃ c a, ctor host junk w v = .ok c ∧ assign host junk w v = .ok a ∧ num c = num a) ↔
      n ≤ w.n := by
  constructor
  · intro h
    by_cases hn : n ≤ w.n
    · exact hn
    · obtain ⟨junk, hj, c, a, hc, ha, hne⟩ := C65_constructed_violated host n w v (by omega)
      obtain ⟨c', a', hc', ha', he⟩ := h junk hj
      rw [hc] at hc'; rw [ha] at ha'
      injection hc' with hc'; injection ha' with ha'
      subst hc' ha'
      exact absurd he hne
  · intro hn junk hj
    refine ⟨_, _, operatorInit_ok .., operatorInit_ok .., ?_⟩
    rw [reset_eq]
    simp only [List.length_replicate]
    rw [show junk.length - w.n = 0 by omega]
    simp

/-- The byte -1 read as a 32-bit integer from a wide integer of 8 bytes meets neither alternative; 5 does. -/
example : ¬ (0 ≤ (0xFF#8 : BitVec 8).toInt ∨ Width.w1 = Width.w4) ∧ 0 ≤ (5#8 : BitVec 8).toInt ∧ Width.w4.n ≤ 8 := by decide

namespace Flame
open ToStr ToStrSpec
open Bytes BytesSpec Wide WideSpec
example := C64_exact .le (List.replicate 8 0#8) .w1 .w4 0xFF#8 (by decide) (by decide)
end Flame

end Wide
end Flame
