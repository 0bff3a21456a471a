import Verif.String.Bytes
import Verif.String.Props

/-!
# C185: a capacity a string reports is really there
-/

namespace Flame.StrBytes
open Str (Shows)
variable {α : Type} [DecidableEq α] {z : α} {sz : Nat} {can : Nat → Bool}

/-- What a string is expected to be: a null one without capacity, or one whose block has room for `capacity()` characters. -/
def Sound (s : BStr α) : Prop :=
  s.str.buf.length = s.str.cap ∧ (s.held = true ↔ 0 < s.str.cap)

/-- **C185 where the bytes fit.**  As long as the number of bytes fits a machine word and the memory is there, `resize` is the `resize` of the element model: the capacity is the
one asked for, and there is room for so many characters. -/
theorem C185_resize_partial (hz : 0 < sz) {s : BStr α} (hs : Sound s) {n : Nat} (hn : 0 < n) (h : sz * n < 2 ^ 64) (hm : can (sz * n) = true) :
    ∃ s', resize z sz can s n = .ok s' ∧ s.str.resize z n = .ok s'.str ∧ Sound s' ∧ s'.str.cap = max s.str.cap n := by
  have hb : bytes sz n ≠ 0 := by
    rw [bytes_small h]; have : 0 < sz * n := Nat.mul_pos hz hn; omega
  obtain ⟨h1, h2⟩ := hs
  unfold resize Str.resize
  cases hh : s.held with
  | true =>
    have hc := h2.1 hh
    have hne : s.str.buf ≠ [] := by intro c; rw [c] at h1; simp at h1; omega
    rw [if_pos rfl, if_pos hne]
    by_cases hlt : s.str.cap < n
    · rw [if_pos hlt, if_pos hlt, if_neg hb, bytes_small h, if_pos hm, fits_small hz h]
      exact ⟨_, rfl, rfl, ⟨grow_length _ _, iff_of_true rfl hn⟩, by show n = _; omega⟩
    · rw [if_neg hlt, if_neg hlt]
      exact ⟨_, rfl, rfl, ⟨h1, h2⟩, by omega⟩
  | false =>
    have hc : s.str.cap = 0 := by
      rcases Nat.eq_zero_or_pos s.str.cap with c | c
      · exact c
      · have := h2.2 c; rw [hh] at this; cases this
    have he : s.str.buf = [] := List.eq_nil_of_length_eq_zero (by omega)
    rw [if_neg (show ¬ (false = true) by decide), if_neg (show ¬ s.str.buf ≠ [] from fun c => c he), bytes_small h, if_pos (Or.inr hm), fits_small hz h,
      Raw.wr_ok z (by simpa using hn)]
    exact ⟨_, rfl, rfl, ⟨by simp, iff_of_true rfl hn⟩, by show n = _; omega⟩

example : Sound (⟨⟨[some 5, some 0], 2, 1⟩, true⟩ : BStr Nat) ∧ 4 * 100 < 2 ^ 64 := ⟨⟨rfl, by decide⟩, by decide⟩

/-- With characters of one byte every number of characters fits. -/
theorem C185_byte_characters {n : Nat} (h : n < 2 ^ 64) : fits 1 n = n ∧ bytes 1 n = n := by
  refine ⟨fits_small (by decide) (by omega), ?_⟩
  rw [bytes_small (by omega)]; omega

example : (2 ^ 63 : Nat) < 2 ^ 64 := by decide

/-- **C185 violated for wider characters.**  A capacity whose bytes do not fit is granted all the same: `capacity()` reports the number asked for, `length()` is unchanged, but the block has
room for fewer characters, and what lay behind them can no longer be read. -/
theorem C185_resize_violated (hz : 0 < sz) {s : BStr α} (hh : s.held = true) {n : Nat} (hc : s.str.cap < n) (h : 2 ^ 64 ≤ sz * n)
    (hb : bytes sz n ≠ 0) (hm : can (bytes sz n) = true) :
    ∃ s', resize z sz can s n = .ok s' ∧ s'.str.cap = n ∧ s'.str.len = s.str.len ∧ s'.str.buf.length < n ∧
      ∀ i, s'.str.buf.length ≤ i → s'.str.buf.rd i = .ub := by
  refine ⟨⟨⟨s.str.buf.grow (fits sz n), n, s.str.len⟩, true⟩, ?_, rfl, rfl, ?_, ?_⟩
  · unfold resize; rw [if_pos hh, if_pos hc, if_neg hb, if_pos hm]
  · show (s.str.buf.grow (fits sz n)).length < n
    rw [grow_length]; exact fits_big hz h
  · intro i hi
    unfold Raw.rd
    rw [List.getElem?_eq_none hi]

example : bytes 4 (2 ^ 62 + 1) = 4 ∧ fits 4 (2 ^ 62 + 1) = 1 ∧ 2 ^ 64 ≤ 4 * (2 ^ 62 + 1) := by decide

/-- A string that shows more characters than the shrunken block holds cannot be read any more. -/
theorem C185_characters_lost (hz : 0 < sz) {s : BStr α} {l : List α} (hl : Shows z s.str l) (hh : s.held = true) {n : Nat} (hc : s.str.cap < n)
    (h : 2 ^ 64 ≤ sz * n) (hb : bytes sz n ≠ 0) (hm : can (bytes sz n) = true) (hlt : bytes sz n < sz * l.length) :
    ∃ s', resize z sz can s n = .ok s' ∧ s'.str.len = l.length ∧ s'.str.chars = .ub := by
  obtain ⟨s', e, _, h2, h3, h4⟩ := C185_resize_violated (z := z) hz hh hc h hb hm
  have hlen : s'.str.buf.length = fits sz n := by
    have e' : resize z sz can s n = .ok ⟨⟨s.str.buf.grow (fits sz n), n, s.str.len⟩, true⟩ := by
      unfold resize; rw [if_pos hh, if_pos hc, if_neg hb, if_pos hm]
    rw [e'] at e; cases e; exact grow_length _ _
  refine ⟨s', e, by rw [h2, hl.length], ?_⟩
  have hf : fits sz n < l.length := by
    unfold fits; exact (Nat.div_lt_iff_lt_mul hz).2 (by rw [Nat.mul_comm]; exact hlt)
  have : ∀ (k i : Nat), i ≤ fits sz n → fits sz n < i + k → s'.str.buf.rdRange i k = .ub := by
    intro k
    induction k with
    | zero => intro i a b; omega
    | succ k ih =>
      intro i a b
      simp only [Raw.rdRange]
      by_cases hi : i = fits sz n
      · rw [h4 i (by omega)]
      · cases hr : s'.str.buf.rd i with
        | ok c => simp only; rw [ih (i + 1) (by omega) (by omega)]
        | ub => rfl
        | loop => unfold Raw.rd at hr; split at hr <;> cases hr
  unfold Str.chars
  exact this _ 0 (by omega) (by rw [h2, hl.length]; omega)

example : Shows 0 (⟨[some 5, some 6, some 0], 3, 2⟩ : Str Nat) [5, 6] ∧ bytes 4 (2 ^ 62 + 1) < 4 * [5, 6].length :=
  ⟨⟨rfl, rfl, by decide, by decide, rfl⟩, by decide⟩

/-- What else it leads to: appending reaches the end of the real block while the string believes to have room, and writes behind it. -/
theorem C185_append_ub (hz : 0 < sz) {s : BStr α} (hh : s.held = true) {n : Nat} (hc : s.str.cap < n) (h : 2 ^ 64 ≤ sz * n) (hb : bytes sz n ≠ 0)
    (hm : can (bytes sz n) = true) (hl : s.str.len < n) (cs : List α) (hx : bytes sz n < sz * (s.str.len + cs.length + 1)) (hcs : cs ≠ []) (f : Nat) :
    ∃ s', resize z sz can s n = .ok s' ∧ runOps (fun t c => Str.pushBack z (f + 1) t c) s'.str cs = .ub := by
  have hf : fits sz n < s.str.len + cs.length + 1 := by
    unfold fits; exact (Nat.div_lt_iff_lt_mul hz).2 (by rw [Nat.mul_comm]; exact hx)
  have hfn := fits_big hz h
  refine ⟨⟨⟨s.str.buf.grow (fits sz n), n, s.str.len⟩, true⟩, by unfold resize; rw [if_pos hh, if_pos hc, if_neg hb, if_pos hm], ?_⟩
  have key : ∀ (cs : List α) (t : Str α), t.cap = n → t.buf.length = fits sz n → fits sz n < t.len + cs.length + 1 → cs ≠ [] →
      (t.len < n) → runOps (fun t c => Str.pushBack z (f + 1) t c) t cs = .ub := by
    intro cs
    induction cs with
    | nil => intro t _ _ _ hn; exact absurd rfl hn
    | cons c cs ih =>
      intro t c1 c2 c3 _ hlt
      have step : ∀ t', Str.pushBack z (f + 1) t c = .ok t' → t'.cap = n ∧ t'.buf.length = fits sz n ∧ t'.len = t.len + 1 ∧ t.len + 1 < fits sz n := by
        intro t' e
        simp only [Str.pushBack] at e
        rw [if_pos (by omega)] at e
        by_cases ha : t.len < t.buf.length
        · rw [Raw.wr_ok c ha, Res.ok_bind] at e
          by_cases hb : t.len + 1 < (t.buf.set t.len (some c)).length
          · rw [Raw.wr_ok z hb, Res.ok_bind] at e
            cases e
            simp only [List.length_set] at hb ⊢
            exact ⟨c1, c2, trivial, by omega⟩
          · rw [Raw.wr_ub z (by omega)] at e; cases e
        · rw [Raw.wr_ub c (by omega)] at e; cases e
      cases e : Str.pushBack z (f + 1) t c with
      | ok t' =>
        obtain ⟨d1, d2, d3, d4⟩ := step t' e
        rw [runOps_cons_ok e]
        simp only [List.length_cons] at c3
        refine ih t' d1 d2 (by omega) ?_ (by omega)
        intro hn; subst hn; simp at c3; omega
      | ub => simp [runOps, e]
      | loop =>
        exfalso
        simp only [Str.pushBack] at e
        rw [if_pos (by omega)] at e
        by_cases ha : t.len < t.buf.length
        · rw [Raw.wr_ok c ha, Res.ok_bind] at e
          by_cases hb : t.len + 1 < (t.buf.set t.len (some c)).length
          · rw [Raw.wr_ok z hb, Res.ok_bind] at e; cases e
          · rw [Raw.wr_ub z (by omega)] at e; cases e
        · rw [Raw.wr_ub c (by omega)] at e; cases e
  exact key cs _ rfl (grow_length _ _) hf hcs hl

-- two characters and room for one: the next character appended is written behind the block
example : (resize 0 4 (fun _ => true) (⟨⟨[some 5, some 0], 2, 1⟩, true⟩ : BStr Nat) (2 ^ 62 + 2) = .ok ⟨⟨[some 5, some 0], 2 ^ 62 + 2, 1⟩, true⟩) ∧
    bytes 4 (2 ^ 62 + 2) < 4 * (1 + [7].length + 1) := by decide

/-- **C185 violated, the bytes come out as 0, or there is no memory.**  The string has no block any more, though `capacity()` reports what was asked for and `length()` what it was; from then on
appending, `clean()` and so even the destructor write through the null pointer. -/
theorem C185_zero_violated {s : BStr α} (hh : s.held = true) {n : Nat} (hc : s.str.cap < n) (hl : s.str.len < n)
    (h : bytes sz n = 0 ∨ can (bytes sz n) = false) :
    ∃ s', resize z sz can s n = .ok s' ∧ s'.held = false ∧ s'.str.cap = n ∧ s'.str.len = s.str.len ∧ s'.str.buf = [] ∧
      clean z s' = .ub ∧ ∀ f c, Str.pushBack z (f + 1) s'.str c = .ub := by
  have e : resize z sz can s n = .ok ⟨⟨[], n, s.str.len⟩, false⟩ := by
    unfold resize; rw [if_pos hh, if_pos hc]
    by_cases h0 : bytes sz n = 0
    · rw [if_pos h0]
    · rcases h with h | h
      · exact absurd h h0
      · rw [if_neg h0, if_neg (by rw [h]; decide)]
  refine ⟨⟨⟨[], n, s.str.len⟩, false⟩, e, rfl, rfl, rfl, rfl, ?_, ?_⟩
  · unfold clean Str.clean
    rw [if_pos (by show n ≠ 0; omega), Raw.wr_ub z (by simp)]
    rfl
  · intro f c
    simp only [Str.pushBack]
    rw [if_pos hl, Raw.wr_ub c (by simp)]
    rfl

example : bytes 4 (2 ^ 62) = 0 ∧ bytes 2 (2 ^ 63) = 0 := by decide

/-- The same for a string without a block: the terminator is written behind a block of no bytes, or through null. -/
theorem C185_first_ub {s : BStr α} (hh : s.held = false) {n : Nat} (h : bytes sz n = 0 ∨ can (bytes sz n) = false) : resize z sz can s n = .ub := by
  unfold resize
  rw [if_neg (by rw [hh]; decide)]
  by_cases hd : bytes sz n = 0 ∨ can (bytes sz n) = true
  case neg => rw [if_neg hd]
  have h : bytes sz n = 0 := by
    rcases hd with hd | hd
    · exact hd
    · rcases h with h | h
      · exact h
      · rw [hd] at h; cases h
  rw [if_pos hd]
  unfold fits
  rw [h, Nat.zero_div, Raw.wr_ub z (by simp)]
  rfl

/-- So `resize(0)` on an empty string is undefined, too, whatever the characters. -/
example : bytes 1 0 = 0 ∧ (⟨⟨[], 0, 0⟩, false⟩ : BStr Nat).held = false := by decide

/-- **C185 violated for `reserve`, whatever the characters.**  If the sum of the capacity and the characters asked for does not fit a machine word, `reserve` does nothing and tells nobody. -/
theorem C185_reserve_ignored {s : BStr α} (hh : s.held = true) {k : Nat} (hcap : s.str.cap < 2 ^ 64) (hk : k < 2 ^ 64) (h : 2 ^ 64 ≤ s.str.cap + k) :
    reserve z sz can s k = .ok s := by
  unfold reserve resize
  have : (s.str.cap + k) % 2 ^ 64 = s.str.cap + k - 2 ^ 64 := by
    rw [Nat.mod_eq_sub_mod h]; exact Nat.mod_eq_of_lt (by omega)
  rw [if_pos hh, if_neg (by rw [this]; omega)]

example : (⟨⟨[some 5, some 0], 2, 1⟩, true⟩ : BStr Nat).str.cap + (2 ^ 64 - 1) ≥ 2 ^ 64 := by decide

/-- **C185 for `reserve`, where everything fits**: the capacity grows by what was asked for, the room is there, and the characters stay. -/
theorem C185_reserve_partial (hz : 0 < sz) {s : BStr α} {l : List α} (hl : Str.Full z s.str l) (hcs : ∀ c ∈ l, c ≠ z) (hh : s.held = true) {k : Nat}
    (h : sz * (s.str.cap + k) < 2 ^ 64) (hm : can (sz * (s.str.cap + k)) = true) :
    ∃ s', reserve z sz can s k = .ok s' ∧ s'.held = true ∧ s'.str.cap = s.str.cap + k ∧ s'.str.buf.length = s.str.cap + k ∧ Shows z s'.str l := by
  have hlt := hl.lt
  have hb := hl.blen
  have hsmall : s.str.cap + k < 2 ^ 64 := by
    have : 1 * (s.str.cap + k) ≤ sz * (s.str.cap + k) := Nat.mul_le_mul_right _ hz
    omega
  obtain ⟨s', e1, e2, e3, e4⟩ := C185_resize_partial (z := z) hz (s := s) ⟨hb, iff_of_true hh (by omega)⟩ (n := s.str.cap + k) (by omega) h hm
  obtain ⟨t, f1, f2, f3⟩ := Str.resize_full hl (s.str.cap + k)
  rw [f1] at e2
  cases e2
  refine ⟨s', by unfold reserve; rw [Nat.mod_eq_of_lt hsmall]; exact e1, e3.2.2 (by omega), by omega, by rw [e3.1]; omega, f2.shows hcs⟩

example : Str.Full 0 (⟨[some 5, some 6, some 0], 3, 2⟩ : Str Nat) [5, 6] ∧ 4 * (3 + 10) < 2 ^ 64 := by
  refine ⟨⟨rfl, rfl, by decide, fun i hi => ?_⟩, by decide⟩
  match i, hi with
  | 0, _ => rfl
  | 1, _ => rfl
  | 2, _ => rfl

end Flame.StrBytes
