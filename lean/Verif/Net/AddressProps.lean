import Verif.Net.Address
import Verif.Net.Ipv4Props

/-!
# C124: addresses of `streams::socket_utils`
-/

namespace Flame.SockUtil
open BytesSpec (Byte)
open Ipv4Spec

/-- Every member has been written: the numbers are `v` and the port is `p`. -/
def Is (a : Ip) (v : List Nat) (p : Nat) : Prop := a = ⟨v.map some, some p⟩

theorem strlen_text : ∀ (t pad : List Byte), 0#8 ∉ t → strlen (t ++ 0#8 :: pad) = .ok t.length
  | [], _, _ => by simp [strlen]
  | c :: t, pad, h => by
    have hc : c ≠ 0#8 := fun e => h (by simp [e])
    have ht : 0#8 ∉ t := fun e => h (by simp [e])
    simp [strlen, hc, strlen_text t pad ht, Res.bind]

theorem strlen_open : ∀ (t : List Byte), 0#8 ∉ t → strlen t = .ub
  | [], _ => rfl
  | c :: t, h => by
    have hc : c ≠ 0#8 := fun e => h (by simp [e])
    have ht : 0#8 ∉ t := fun e => h (by simp [e])
    simp [strlen, hc, strlen_open t ht, Res.bind]

theorem countColons_eq : ∀ (t : List Byte) (k : Nat), countColons t k = k + t.count 58#8
  | [], k => by simp [countColons]
  | c :: t, k => by
    rw [countColons, countColons_eq t, List.count_cons]
    by_cases h : c = 58#8 <;> simp [h] <;> omega

theorem copyNums_ok (v : List Nat) : ∀ (k i : Nat) (dst : Raw Nat), i + k = v.length → dst.length = v.length →
    dst.take i = (v.map some).take i → copyNums (v.map some) dst i k = .ok (v.map some)
  | 0, i, dst, hi, hl, h => by
    rw [List.take_of_length_le (by omega), List.take_of_length_le (by simp; omega)] at h
    simp [copyNums, h]
  | k + 1, i, dst, hi, hl, h => by
    have hlt : i < v.length := by omega
    have e : Raw.rd (v.map some) i = .ok v[i] := by simp [Raw.rd, hlt]
    have e2 : Raw.wr dst i v[i] = .ok (dst.set i (some v[i])) := by rw [Raw.wr, if_pos (by omega)]
    rw [copyNums, e]
    simp only [Res.ok_bind, e2]
    refine copyNums_ok v k (i + 1) _ (by omega) (by simpa using hl) ?_
    rw [List.take_add_one, List.take_add_one, List.take_set_of_le (by omega), h]
    simp [hlt, hl]

theorem assign_ok {v : List Nat} {p n : Nat} {dst src : Ip} (hs : Is src v p) (hn : v.length = n) (hd : dst.nums.length = n) :
    assign n dst src = .ok src := by
  unfold Is at hs; subst hs
  unfold assign
  simp only
  rw [← hn, copyNums_ok v _ 0 _ (by omega) (by omega) (by simp)]
  rfl

theorem copyCtor_ok {v : List Nat} {p n : Nat} {src : Ip} (hs : Is src v p) (hn : v.length = n) : copyCtor n src = .ok src := by
  unfold Is at hs; subst hs
  unfold copyCtor
  simp only [rdPort, Res.ok_bind]
  rw [← hn, copyNums_ok v _ 0 _ (by omega) (by simp [raw]) (by simp)]
  rfl

theorem zero_is (n : Nat) : Is (zero n) (List.replicate n 0) 0 := by simp [Is, zero]

theorem fromText4_eq {text : Option (List Byte)} {r : Except Int Ip} (h : stringToIpv4 text = .ok r) : fromText4 text = .ok (zero 4) := by
  have hz : assign 4 (raw 4) (zero 4) = .ok (zero 4) := assign_ok (zero_is 4) (by simp) (by simp [raw])
  unfold fromText4
  rw [h]
  simp only [Res.ok_bind]
  cases r with
  | error e => exact hz
  | ok a =>
    have : a = zero 4 := by
      unfold stringToIpv4 at h
      cases hl : rawStringLength text with
      | ok n =>
        rw [hl] at h
        simp only [Res.ok_bind] at h
        split at h
        · cases h
        · split at h <;> cases h; rfl
      | ub => rw [hl] at h; cases h
      | loop => rw [hl] at h; cases h
    subst this; exact hz

theorem stringToIpv4_text {t : List Byte} (pad : List Byte) (ht : 0#8 ∉ t) :
    stringToIpv4 (some (t ++ 0#8 :: pad)) =
      .ok (if t.length < 15 ∧ 3 ≤ t.count 58#8 then .ok (zero 4) else .error (-1)) := by
  unfold stringToIpv4 rawStringLength
  simp only [strlen_text t pad ht, Res.ok_bind, Option.getD_some, List.take_left, countColons_eq, Nat.zero_add]
  by_cases h1 : t.length ≥ 15
  · rw [if_pos h1, if_neg (by omega)]
  · rw [if_neg h1]
    by_cases h2 : t.count 58#8 < 3
    · rw [if_pos h2, if_neg (by omega)]
    · rw [if_neg h2, if_pos (by omega)]

end Flame.SockUtil

namespace Flame
open SockUtil Ipv4Spec
open BytesSpec (Byte)

/-- **C124, violated**: whatever text an `Ipv4` is made from, it is the address 0.0.0.0 with port 0. -/
theorem C124_text_violated (t pad : List Byte) (ht : 0#8 ∉ t) :
    ∃ a, fromText4 (some (t ++ 0#8 :: pad)) = .ok a ∧ Is a [0, 0, 0, 0] 0 :=
  ⟨zero 4, fromText4_eq (stringToIpv4_text pad ht), rfl⟩

/-- "192.168.1.77" in a larger array. -/
example : 0#8 ∉ join exampleParts := by decide

/-- The null pointer gives the same address. -/
theorem C124_null : ∃ a, fromText4 none = .ok a ∧ Is a [0, 0, 0, 0] 0 :=
  ⟨zero 4, fromText4_eq (r := .error (-1)) rfl, rfl⟩

/-- **C124**: a text that denotes an address gives that address exactly if the address is 0.0.0.0. -/
theorem C124_text_iff (cs : List (List Byte)) (hw : WellFormed cs) (pad : List Byte) (p : Nat) :
    (∃ a, fromText4 (some (join cs ++ 0#8 :: pad)) = .ok a ∧ Is a (cs.map value) p) ↔ (∀ c ∈ cs, value c = 0) ∧ p = 0 := by
  have hz : 0#8 ∉ join cs := by
    intro h
    rcases Ipv4.mem_join_iff h with h | ⟨c, hc, hb⟩
    · exact absurd h (by decide)
    · exact (Ipv4.decimal_no (hw.2 c hc).2.1).2 hb
  have e := fromText4_eq (stringToIpv4_text pad hz)
  rw [e]
  constructor
  · rintro ⟨a, ha, hi⟩
    cases ha
    simp only [Is, zero, Ip.mk.injEq, Option.some.injEq] at hi
    refine ⟨fun c hc => ?_, hi.2.symm⟩
    have : some (value c) ∈ List.replicate 4 (some 0) := by
      rw [hi.1]; exact List.mem_map_of_mem (List.mem_map_of_mem hc)
    simpa using List.eq_of_mem_replicate this
  · rintro ⟨h, rfl⟩
    refine ⟨zero 4, rfl, ?_⟩
    have : cs.map value = List.replicate 4 0 := by
      rw [List.eq_replicate_iff]
      refine ⟨by simpa using hw.1, fun b hb => ?_⟩
      obtain ⟨c, hc, rfl⟩ := List.mem_map.mp hb
      exact h c hc
    rw [this]; exact zero_is 4

example : WellFormed exampleParts ∧ ¬ ∀ c ∈ exampleParts, value c = 0 := by decide

/-- **C124, violated**: the text of an address is refused, whatever the address: dots are not what is looked for. -/
theorem C124_refused_violated (cs : List (List Byte)) (hw : WellFormed cs) (pad : List Byte) :
    stringToIpv4 (some (join cs ++ 0#8 :: pad)) = .ok (.error (-1)) := by
  have no : ∀ b : Byte, b ≠ 46#8 → ¬ (48 ≤ b.toNat ∧ b.toNat ≤ 57) → b ∉ join cs := by
    intro b h1 h2 h
    rcases Ipv4.mem_join_iff h with h | ⟨c, hc, hb⟩
    · exact h1 h
    · exact h2 ((hw.2 c hc).2.1 b hb)
  rw [stringToIpv4_text pad (no _ (by decide) (by decide)), if_neg]
  rw [List.count_eq_zero.mpr (no _ (by decide) (by decide))]
  omega

example : WellFormed exampleParts := by decide

/-- **C124, violated**: what is accepted is every text of fewer than 15 characters with three or more colons. -/
theorem C124_accepted_iff (t pad : List Byte) (ht : 0#8 ∉ t) :
    (∃ a, stringToIpv4 (some (t ++ 0#8 :: pad)) = .ok (.ok a)) ↔ t.length < 15 ∧ 3 ≤ t.count 58#8 := by
  rw [stringToIpv4_text pad ht]
  split <;> simp_all

/-- "a:::" is accepted. -/
example : stringToIpv4 (some [97#8, 58#8, 58#8, 58#8, 0#8]) = .ok (.ok (zero 4)) := rfl

/-- A text without terminator is read past its end. -/
theorem C124_unterminated_ub (t : List Byte) (ht : 0#8 ∉ t) : fromText4 (some t) = .ub := by
  simp [fromText4, stringToIpv4, rawStringLength, strlen_open t ht]

example : 0#8 ∉ [49#8, 46#8] := by decide

/-- **C124, violated**: the text of every address is the empty string, hence never the address: no text that denotes an address is
what `getAddress` gives, at any size of the array. -/
theorem C124_getAddress_violated (a : Ip) (size : Nat) (cs : List (List Byte)) (hw : WellFormed cs) :
    (getAddress size a).takeWhile (· ≠ 0#8) = [] ∧ (getAddress size a).takeWhile (· ≠ 0#8) ≠ join cs ∧
    (getAddress size a).length = size := by
  have e : (getAddress size a).takeWhile (· ≠ 0#8) = [] := by
    cases size <;> simp [getAddress, List.replicate_succ]
  refine ⟨e, ?_, by simp [getAddress]⟩
  rw [e]
  intro h
  match cs, hw with
  | [c, c', c'', c'''], hw => simp [join] at h

example : WellFormed exampleParts := by decide

/-- **C124, violated**: an `Ipv6` made from a text has no value: copying it, assigning it to another address and reading its port
are undefined. -/
theorem C124_v6_text_ub (text : Option (List Byte)) (dst : Ip) :
    copyCtor 8 (fromText6 text) = .ub ∧ assign 8 dst (fromText6 text) = .ub ∧ rdPort (fromText6 text).port = .ub ∧
    ∀ i, Raw.rd (fromText6 text).nums i = .ub := by
  have h : ∀ i, Raw.rd (fromText6 text).nums i = .ub := by
    intro i
    unfold Raw.rd fromText6 raw
    simp only [List.getElem?_replicate]
    split <;> simp_all
  refine ⟨rfl, ?_, rfl, h⟩
  simp only [assign, copyNums, h, Res.ub_bind]

/-- **C124 (partial)**: default constructed addresses are all zero; copying and assigning give the same numbers and port for every
address that has a value, over any previous value, initialised or not.
Missing: addresses made from a text, and their texts. -/
theorem C124_copy_partial {v : List Nat} {p n : Nat} {src dst : Ip} (hs : Is src v p) (hn : v.length = n)
    (hd : dst.nums.length = n) :
    copyCtor n src = .ok src ∧ assign n dst src = .ok src ∧ Is (zero n) (List.replicate n 0) 0 :=
  ⟨copyCtor_ok hs hn, assign_ok hs hn hd, zero_is n⟩

/-- 192.168.1.77:80 assigned to an address made from a text. -/
example : Is ⟨[some 192, some 168, some 1, some 77], some 80⟩ [192, 168, 1, 77] 80 ∧ (raw 4).nums.length = 4 := ⟨rfl, rfl⟩

end Flame
