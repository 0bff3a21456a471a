import Verif.Net.Ipv4
import Verif.Bytes.Lemmas
import Verif.Numbers.ToStringProps

/-!
# Properties of IPv4 addresses (C27, C28)
-/

namespace Flame
namespace Ipv4Spec
open BytesSpec (Byte)

/-- Components joined by dots. -/
def join : List (List Byte) → List Byte
  | [] => []
  | [c] => c
  | c :: c' :: cs => c ++ 46#8 :: join (c' :: cs)

/-- Only decimal digits. -/
def Decimal (c : List Byte) : Prop := ∀ b ∈ c, 48 ≤ b.toNat ∧ b.toNat ≤ 57

/-- The number that decimal digits denote. -/
def value (c : List Byte) : Nat := c.foldl (fun a b => a * 10 + (b.toNat - 48)) 0

/-- Decomposition of a text at its dots. -/
def Parts (t : List Byte) (cs : List (List Byte)) : Prop := t = join cs ∧ cs ≠ [] ∧ ∀ c ∈ cs, 46#8 ∉ c

/-- Four decimal numbers `0..255` separated by dots. -/
def WellFormed (cs : List (List Byte)) : Prop := cs.length = 4 ∧ ∀ c ∈ cs, c ≠ [] ∧ Decimal c ∧ value c ≤ 255

instance (c : List Byte) : Decidable (Decimal c) := by unfold Decimal; infer_instance
instance (cs : List (List Byte)) : Decidable (WellFormed cs) := by unfold WellFormed; infer_instance

end Ipv4Spec

open BytesSpec (Byte)
open Bytes (copyTo)
open Ipv4 Ipv4Spec ToStrSpec

namespace Ipv4

theorem isDigit_iff (c : Byte) : isDigit c = true ↔ 48 ≤ c.toNat ∧ c.toNat ≤ 57 := by simp [isDigit]

theorem wrap16_id {x : Int} (h : -32768 ≤ x) (h' : x < 32768) : wrap16 x = x := by
  unfold wrap16
  apply Int.bmod_eq_of_le <;> simp <;> omega

/-- Value of reversed digits. -/
def rvalue : List Byte → Int
  | [] => 0
  | c :: cs => ((c.toNat : Int) - 48) + 10 * rvalue cs

theorem toNumber_eq (cs : List Byte) (n d : Int) (hn : wrap16 n = n) : toNumber cs n d = wrap16 (n + d * rvalue cs) := by
  induction cs generalizing n d with
  | nil => simp [toNumber, rvalue, hn]
  | cons c cs ih =>
    rw [toNumber, ih _ _ (by simp [wrap16]), rvalue]
    unfold wrap16
    rw [Int.bmod_add_bmod, ← Int.add_bmod_bmod, Int.bmod_mul_bmod, Int.add_bmod_bmod]
    congr 1
    rw [Int.mul_add, Int.add_assoc, Int.mul_comm d (_ - _), Int.mul_assoc]

theorem rvalue_reverse (c : List Byte) (h : Decimal c) : rvalue c.reverse = value c := by
  have key : ∀ l : List Byte, Decimal l → rvalue l = value l.reverse := by
    intro l
    induction l with
    | nil => intro _; rfl
    | cons b l ih =>
      intro h
      rw [rvalue, ih (fun x hx => h x (List.mem_cons_of_mem _ hx))]
      have := h b (by simp)
      unfold value
      rw [List.reverse_cons, List.foldl_append]
      simp
      omega
  rw [key _ (fun b hb => h b (by simpa using hb)), List.reverse_reverse]

/-- The scan, component by component. -/
def walk : Bool → Nat → List (List Byte) → List Int → Res (Bool × List Int)
  | _, _, [], dest => .ok (true, dest)
  | first, index, c :: cs, dest =>
    if ¬ Decimal c then .ok (false, dest)
    else if index = 4 then .ok (false, dest)
    else if first = false ∧ c = [] then .ub
    else walk false (index + 1) cs (dest.set index (wrap16 (value c)))

theorem scan_cons (text : List Byte) (c : Byte) (rest : List Byte) (it : Nat) (start : Option Nat) (index : Nat) (dest : List Int) :
    scan text (c :: rest) it start index dest =
      if isDigit c then scan text rest (it + 1) (if start.isNone then some it else start) index dest
      else if index = 4 then .ok (false, dest)
      else if ¬ (c = 46#8 ∨ c = 0#8) then .ok (false, dest)
      else
        match start with
        | none => .ub
        | some b =>
          scan text rest (it + 1) none (index + 1) (dest.set index (toNumber ((text.drop b).take (it - b)).reverse 0 1)) := by
  cases start <;> rfl

theorem scan_digits (text c rest : List Byte) (hc : Decimal c) (it : Nat) (start : Option Nat) (index : Nat) (dest : List Int) :
    scan text (c ++ rest) it start index dest =
      scan text rest (it + c.length) (if start.isNone ∧ c ≠ [] then some it else start) index dest := by
  induction c generalizing it start with
  | nil => simp
  | cons b c ih =>
    have hb := (isDigit_iff b).mpr (hc b (by simp))
    rw [List.cons_append, scan_cons, if_pos hb, ih (fun x hx => hc x (List.mem_cons_of_mem _ hx))]
    congr 1
    · simp; omega
    · cases start <;> simp

theorem scan_bad (text c rest : List Byte) (hc : ¬ Decimal c) (hdot : 46#8 ∉ c) (hz : 0#8 ∉ c) (it : Nat) (start : Option Nat)
    (index : Nat) (dest : List Int) :
    scan text (c ++ rest) it start index dest = .ok (false, dest) := by
  induction c generalizing it start with
  | nil => exact absurd (by intro b hb; simp at hb) hc
  | cons b c ih =>
    rw [List.cons_append, scan_cons]
    by_cases hb : isDigit b = true
    · rw [if_pos hb]
      apply ih
      · intro h
        apply hc
        intro x hx
        rcases List.mem_cons.mp hx with rfl | hx
        · exact (isDigit_iff x).mp hb
        · exact h x hx
      · intro h; exact hdot (List.mem_cons_of_mem _ h)
      · intro h; exact hz (List.mem_cons_of_mem _ h)
    · rw [if_neg hb]
      split
      · rfl
      · have h1 : b ≠ 46#8 := fun e => hdot (by simp [e])
        have h2 : b ≠ 0#8 := fun e => hz (by simp [e])
        rw [if_pos (by simp [h1, h2])]

theorem scan_end (text : List Byte) (d : Byte) (hd : d = 46#8 ∨ d = 0#8) (rest : List Byte) (it : Nat) (start : Option Nat)
    (index : Nat) (dest : List Int) :
    scan text (d :: rest) it start index dest =
      if index = 4 then .ok (false, dest) else
        match start with
        | none => .ub
        | some b =>
          scan text rest (it + 1) none (index + 1) (dest.set index (toNumber ((text.drop b).take (it - b)).reverse 0 1)) := by
  have h : ¬ isDigit d = true := by
    rw [isDigit_iff]
    rcases hd with rfl | rfl <;> decide
  rw [scan_cons, if_neg h]
  by_cases h4 : index = 4
  · rw [if_pos h4, if_pos h4]
  · rw [if_neg h4, if_neg h4, if_neg (not_not_intro hd)]

theorem scan_walk (cs : List (List Byte)) (hdot : ∀ c ∈ cs, 46#8 ∉ c) (hz : ∀ c ∈ cs, 0#8 ∉ c) (hne : cs ≠ []) (first : Bool)
    (pre text : List Byte) (ht : text = pre ++ join cs) (index : Nat) (dest : List Int) :
    scan text (join cs ++ [0#8]) pre.length (if first then some pre.length else none) index dest = walk first index cs dest := by
  induction cs generalizing first pre index dest with
  | nil => exact absurd rfl hne
  | cons c cs ih =>
    -- the delimiter and what follows it
    obtain ⟨d, rest, hjoin, hd, hrest⟩ : ∃ d rest, join (c :: cs) ++ [0#8] = c ++ d :: rest ∧ (d = 46#8 ∨ d = 0#8) ∧
        ((cs = [] ∧ rest = []) ∨ (cs ≠ [] ∧ rest = join cs ++ [0#8] ∧ text = (pre ++ c ++ [46#8]) ++ join cs)) := by
      cases cs with
      | nil => exact ⟨0#8, [], by simp [join], Or.inr rfl, Or.inl ⟨rfl, rfl⟩⟩
      | cons c' cs => exact ⟨46#8, join (c' :: cs) ++ [0#8], by simp [join], Or.inl rfl, Or.inr ⟨by simp, rfl, by simp [ht, join]⟩⟩
    have htext : ∃ tail, text = pre ++ (c ++ tail) := by
      rw [ht]
      cases cs with
      | nil => exact ⟨[], by simp [join]⟩
      | cons c' cs => exact ⟨46#8 :: join (c' :: cs), by simp [join]⟩
    rw [hjoin, walk]
    by_cases hc : Decimal c
    · rw [if_neg (not_not_intro hc), scan_digits _ _ _ hc, scan_end _ _ hd]
      split
      · rfl
      · obtain ⟨tail, htail⟩ := htext
        have hslice : toNumber ((text.drop pre.length).take (pre.length + c.length - pre.length)).reverse 0 1 = wrap16 (value c) := by
          rw [htail, List.drop_left, show pre.length + c.length - pre.length = c.length by omega, List.take_left,
            toNumber_eq _ _ _ (by decide), rvalue_reverse _ hc]
          simp
        have hstep : scan text rest (pre.length + c.length + 1) none (index + 1) (dest.set index (wrap16 (value c))) =
            walk false (index + 1) cs (dest.set index (wrap16 (value c))) := by
          rcases hrest with ⟨rfl, rfl⟩ | ⟨h1, h2, h3⟩
          · rfl
          · rw [h2]
            have := ih (fun c hc => hdot c (List.mem_cons_of_mem _ hc)) (fun c hc => hz c (List.mem_cons_of_mem _ hc)) h1 false
              (pre ++ c ++ [46#8]) h3 (index + 1) (dest.set index (wrap16 (value c)))
            simpa [Nat.add_assoc] using this
        cases first with
        | false =>
          by_cases hce : c = []
          · subst hce; simp
          · simp only [Bool.false_eq_true, if_false, Option.isNone_none, true_and, hce, ne_eq, not_false_eq_true, if_true,
              and_false]
            rw [hslice, hstep]
        | true =>
          simp only [if_true, Option.isNone_some, Bool.false_eq_true, false_and, if_false, Bool.true_eq_false]
          rw [hslice, hstep]
    · rw [if_pos hc, scan_bad _ _ _ hc (hdot c (by simp)) (hz c (by simp))]

theorem mem_join {cs : List (List Byte)} {c : List Byte} (h : c ∈ cs) {b : Byte} (hb : b ∈ c) : b ∈ join cs := by
  induction cs with
  | nil => simp at h
  | cons a cs ih =>
    cases cs with
    | nil =>
      simp at h; subst h; exact hb
    | cons a' cs =>
      simp only [join, List.mem_append, List.mem_cons]
      rcases List.mem_cons.mp h with rfl | h
      · exact Or.inl hb
      · exact Or.inr (Or.inr (ih h))

/-- The parser in terms of the components. -/
theorem parse_walk {t : List Byte} {cs : List (List Byte)} (h : Parts t cs) (hz : 0#8 ∉ t) (hl : 7 ≤ t.length) (hl' : t.length ≤ 15)
    (dest : List Int) : parse t dest = walk true 0 cs dest := by
  obtain ⟨h1, h2, h3⟩ := h
  rw [parse, if_neg (by omega)]
  have := scan_walk cs h3 (fun c hc hb => hz (by rw [h1]; exact mem_join hc hb)) h2 true [] t (by simpa using h1) 0 dest
  rw [← h1] at this
  simpa using this

theorem parts_exists (t : List Byte) : ∃ cs, Parts t cs := by
  induction t with
  | nil => exact ⟨[[]], rfl, by simp, by simp⟩
  | cons b t ih =>
    obtain ⟨cs, h1, h2, h3⟩ := ih
    by_cases hb : b = 46#8
    · refine ⟨[] :: cs, ?_, by simp, ?_⟩
      · cases cs with
        | nil => exact absurd rfl h2
        | cons c cs => simp [join, hb, h1]
      · intro c hc
        rcases List.mem_cons.mp hc with rfl | hc
        · simp
        · exact h3 c hc
    · cases cs with
      | nil => exact absurd rfl h2
      | cons c cs =>
        refine ⟨(b :: c) :: cs, ?_, by simp, ?_⟩
        · rw [h1]; cases cs <;> simp [join]
        · intro x hx
          rcases List.mem_cons.mp hx with rfl | hx
          · simp only [List.mem_cons, not_or]
            exact ⟨fun e => hb e.symm, h3 c (by simp)⟩
          · exact h3 x (List.mem_cons_of_mem _ hx)

/-- What acceptance means for the components. -/
def Acceptable (first : Bool) (cs : List (List Byte)) : Prop :=
  (∀ c ∈ cs, Decimal c) ∧ ∀ i c, cs[i]? = some c → (first = true → 0 < i) → c ≠ []

theorem setAll (dest : List Int) (index : Nat) (v : Int) (vs : List Int) (h : index < dest.length) :
    ((dest.set index v).take (index + 1) ++ vs ++ (dest.set index v).drop (index + 1 + vs.length)) =
      dest.take index ++ (v :: vs) ++ dest.drop (index + (vs.length + 1)) := by
  rw [List.take_set, List.drop_set_of_lt (by omega), List.take_succ_eq_append_getElem h]
  rw [List.set_append_right _ _ (by simp; omega)]
  simp [Nat.min_eq_left (Nat.le_of_lt h), Nat.add_assoc, Nat.add_comm 1]

theorem walk_true (cs : List (List Byte)) (first : Bool) (index : Nat) (dest d : List Int) (hd : dest.length = 4) (hi : index ≤ 4) :
    walk first index cs dest = .ok (true, d) ↔
      index + cs.length ≤ 4 ∧ Acceptable first cs ∧
        d = dest.take index ++ cs.map (fun c => wrap16 (value c)) ++ dest.drop (index + cs.length) := by
  induction cs generalizing first index dest with
  | nil =>
    simp only [walk, Res.ok.injEq, Prod.mk.injEq, true_and, List.length_nil, Nat.add_zero, List.map_nil, List.append_nil,
      List.take_append_drop]
    constructor
    · intro h; exact ⟨hi, ⟨by simp, by simp⟩, h.symm⟩
    · intro h; exact h.2.2.symm
  | cons c cs ih =>
    rw [walk]
    by_cases hc : Decimal c
    · rw [if_neg (by simpa using hc)]
      by_cases h4 : index = 4
      · rw [if_pos h4]
        simp
        omega
      · rw [if_neg h4]
        by_cases he : first = false ∧ c = []
        · rw [if_pos he]
          simp only [reduceCtorEq, false_iff]
          rintro ⟨_, ⟨_, h2⟩, _⟩
          exact h2 0 c (by simp) (by simp [he.1]) he.2
        · rw [if_neg he, ih false (index + 1) _ (by simpa using hd) (by omega)]
          have hset := setAll dest index (wrap16 (value c)) (cs.map fun c => wrap16 (value c)) (by omega)
          simp only [List.length_map] at hset
          rw [hset]
          have e1 : index + 1 + cs.length = index + (c :: cs).length := by simp; omega
          rw [e1]
          simp only [List.length_cons, List.map_cons]
          have e2 : Acceptable false cs ↔ Acceptable first (c :: cs) := by
            constructor
            · rintro ⟨a, b⟩
              refine ⟨?_, ?_⟩
              · intro x hx
                rcases List.mem_cons.mp hx with rfl | hx
                · exact hc
                · exact a x hx
              · intro i x hx hi0
                cases i with
                | zero =>
                  simp at hx; subst hx
                  intro e
                  cases first with
                  | true => exact absurd (hi0 rfl) (by omega)
                  | false => exact he ⟨rfl, e⟩
                | succ i => exact b i x (by simpa using hx) (by simp)
            · rintro ⟨a, b⟩
              exact ⟨fun x hx => a x (List.mem_cons_of_mem _ hx), fun i x hx _ => b (i + 1) x (by simpa using hx) (by omega)⟩
          rw [e2]
    · rw [if_pos hc]
      simp only [Res.ok.injEq, Prod.mk.injEq, Bool.false_eq_true, false_and, false_iff]
      rintro ⟨_, ⟨h, _⟩, _⟩
      exact hc (h c (by simp))

theorem walk_ub (cs : List (List Byte)) (first : Bool) (index : Nat) (dest : List Int) (hi : index ≤ 4) :
    walk first index cs dest = .ub ↔
      ∃ j, cs[j]? = some [] ∧ (first = true → 0 < j) ∧ index + j < 4 ∧
        (∀ i c, i < j → cs[i]? = some c → Decimal c ∧ ((first = true → 0 < i) → c ≠ [])) := by
  induction cs generalizing first index dest with
  | nil => simp [walk]
  | cons c cs ih =>
    rw [walk]
    by_cases hc : Decimal c
    · rw [if_neg (by simpa using hc)]
      by_cases h4 : index = 4
      · rw [if_pos h4]
        simp only [reduceCtorEq, false_iff]
        rintro ⟨j, _, _, h, _⟩
        omega
      · rw [if_neg h4]
        by_cases he : first = false ∧ c = []
        · rw [if_pos he]
          simp only [true_iff]
          refine ⟨0, by simp [he.2], by simp [he.1], by omega, by intro i c h; omega⟩
        · rw [if_neg he, ih false (index + 1) _ (by omega)]
          constructor
          · rintro ⟨j, a, _, b, d⟩
            refine ⟨j + 1, by simpa using a, by omega, by omega, ?_⟩
            intro i x hi hx
            cases i with
            | zero =>
              simp at hx; subst hx
              refine ⟨hc, fun h e => ?_⟩
              cases first with
              | true => exact absurd (h rfl) (by omega)
              | false => exact he ⟨rfl, e⟩
            | succ i =>
              have := d i x (by omega) (by simpa using hx)
              exact ⟨this.1, fun _ => this.2 (by simp)⟩
          · rintro ⟨j, a, b, b2, d⟩
            cases j with
            | zero =>
              exfalso
              simp at a
              cases first with
              | true => exact absurd (b rfl) (by omega)
              | false => exact he ⟨rfl, a⟩
            | succ j =>
              refine ⟨j, by simpa using a, by simp, by omega, ?_⟩
              intro i x hi hx
              have := d (i + 1) x (by omega) (by simpa using hx)
              exact ⟨this.1, fun _ => this.2 (by omega)⟩
    · rw [if_pos hc]
      simp only [reduceCtorEq, false_iff]
      rintro ⟨j, a, b, b2, d⟩
      cases j with
      | zero =>
        simp at a; subst a
        exact hc (by intro b hb; simp at hb)
      | succ j => exact hc (d 0 c (by omega) (by simp)).1

theorem walk_ne_loop (cs : List (List Byte)) (first : Bool) (index : Nat) (dest : List Int) : walk first index cs dest ≠ .loop := by
  induction cs generalizing first index dest with
  | nil => simp [walk]
  | cons c cs ih =>
    rw [walk]
    split
    · simp
    · split
      · simp
      · split
        · simp
        · exact ih _ _ _

/-- What the text of an octet denotes: the tens digit is lost when it is zero. -/
def squash (v : Nat) : Nat := if 100 ≤ v ∧ v / 10 % 10 = 0 then v / 100 * 10 + v % 10 else v

theorem digitChar_nat (k : Nat) : digitChar (k : Int) = BitVec.ofNat 8 (48 + k) := by
  unfold digitChar
  rw [show ((k : Int) + 48) = ((48 + k : Nat) : Int) by omega, BitVec.ofInt_natCast]

/-- The digits written for an octet. -/
def octetDigits (v : Nat) : List Nat :=
  (if v / 100 ≠ 0 then [v / 100] else []) ++ (if v % 100 / 10 ≠ 0 then [v % 100 / 10] else []) ++ [v % 10]

theorem octet_nat (v : Nat) : octet (v : Int) = (octetDigits v).map (fun d => BitVec.ofNat 8 (48 + d)) := by
  have h1 : (v : Int).tdiv 100 = ((v / 100 : Nat) : Int) := rfl
  have h2 : ((v : Int).tmod 100).tdiv 10 = ((v % 100 / 10 : Nat) : Int) := rfl
  have h3 : ((v : Int).tmod 100).tmod 10 = ((v % 100 % 10 : Nat) : Int) := rfl
  unfold octet octetDigits
  rw [h1, h2, h3]
  simp only [digitChar_nat, List.map_append, List.map_cons, List.map_nil]
  congr 1
  · congr 1
    · by_cases h : v / 100 = 0
      · rw [if_neg (by omega), if_neg (by omega)]; rfl
      · rw [if_pos (by omega), if_pos (by omega)]; rfl
    · by_cases h : v % 100 / 10 = 0
      · rw [if_neg (by omega), if_neg (by omega)]; rfl
      · rw [if_pos (by omega), if_pos (by omega)]; rfl
  · congr 3; omega

theorem octetDigits_ok (v : Nat) (hv : v ≤ 255) :
    (∀ d ∈ octetDigits v, d < 10) ∧ octetDigits v ≠ [] ∧ (octetDigits v).foldl (fun a d => a * 10 + d) 0 = squash v ∧
      ((octetDigits v).head? = some 0 → octetDigits v = [0]) := by
  unfold octetDigits squash
  by_cases h1 : v / 100 = 0
  · by_cases h2 : v % 100 / 10 = 0
    · rw [if_neg (by omega), if_neg (by omega), if_neg (by omega)]
      simp
      omega
    · rw [if_neg (by omega), if_pos (by omega), if_neg (by omega)]
      simp
      omega
  · by_cases h2 : v % 100 / 10 = 0
    · rw [if_pos (by omega), if_neg (by omega), if_pos (by omega)]
      simp
      omega
    · rw [if_pos (by omega), if_pos (by omega), if_neg (by omega)]
      simp
      omega

theorem digits_text_decimal {ds : List Nat} (h : ∀ d ∈ ds, d < 10) :
    Decimal (ds.map (fun d => BitVec.ofNat 8 (48 + d))) ∧
      value (ds.map (fun d => BitVec.ofNat 8 (48 + d))) = ds.foldl (fun a d => a * 10 + d) 0 := by
  have hn : ∀ d ∈ ds, (BitVec.ofNat 8 (48 + d)).toNat = 48 + d := by
    intro d hd
    have := h d hd
    simp; omega
  constructor
  · intro b hb
    obtain ⟨d, hd, rfl⟩ := List.mem_map.mp hb
    have := h d hd
    rw [hn d hd]; omega
  · unfold value
    rw [List.foldl_map]
    generalize 0 = a
    clear h
    induction ds generalizing a with
    | nil => rfl
    | cons d ds ih =>
      rw [List.foldl_cons, List.foldl_cons, hn d (by simp), ih (fun x hx => hn x (List.mem_cons_of_mem _ hx))]
      congr 2; omega

theorem octet_length (v : Int) : 1 ≤ (octet v).length ∧ (octet v).length ≤ 3 := by
  unfold octet
  split <;> split <;> simp

theorem formatLoop_four (a b c d : Int) : formatLoop [a, b, c, d] 0 = join [octet a, octet b, octet c, octet d] := by
  simp [formatLoop, join]

theorem format_four (a b c d : Int) :
    ∃ pad, format [a, b, c, d] = .ok (join [octet a, octet b, octet c, octet d] ++ 0#8 :: pad) ∧
      (join [octet a, octet b, octet c, octet d] ++ 0#8 :: pad).length = 16 ∧
      7 ≤ (join [octet a, octet b, octet c, octet d]).length ∧ (join [octet a, octet b, octet c, octet d]).length ≤ 15 := by
  have hl : 7 ≤ (join [octet a, octet b, octet c, octet d]).length ∧ (join [octet a, octet b, octet c, octet d]).length ≤ 15 := by
    have := octet_length a
    have := octet_length b
    have := octet_length c
    have := octet_length d
    simp [join]; omega
  have hi : addressInit.length = 16 := rfl
  refine ⟨addressInit.drop (0 + (join [octet a, octet b, octet c, octet d] ++ [0#8]).length), ?_, ?_, hl⟩
  · rw [format, formatLoop_four, Bytes.copyTo_ok (by rw [hi, List.length_append]; simp only [List.length_singleton]; omega)]
    simp
  · simp only [List.length_append, List.length_cons, List.length_drop, hi, List.length_singleton, List.length_nil]
    omega

theorem takeWhile_text {t pad : List Byte} (h : ∀ b ∈ t, b ≠ 0#8) : (t ++ 0#8 :: pad).takeWhile (· ≠ 0#8) = t := by
  induction t with
  | nil => simp
  | cons b t ih =>
    rw [List.cons_append, List.takeWhile_cons, if_pos (by simpa using h b (by simp)), ih (fun x hx => h x (List.mem_cons_of_mem _ hx))]

theorem decimal_no {c : List Byte} (h : Decimal c) : 46#8 ∉ c ∧ 0#8 ∉ c := by
  constructor <;> intro hm <;> have := h _ hm <;> simp at this

theorem mem_join_iff {cs : List (List Byte)} {b : Byte} (h : b ∈ join cs) : b = 46#8 ∨ ∃ c ∈ cs, b ∈ c := by
  induction cs with
  | nil => simp [join] at h
  | cons c cs ih =>
    cases cs with
    | nil => exact Or.inr ⟨c, by simp, by simpa [join] using h⟩
    | cons c' cs =>
      simp only [join, List.mem_append, List.mem_cons] at h
      rcases h with h | h | h
      · exact Or.inr ⟨c, by simp, h⟩
      · exact Or.inl h
      · rcases ih h with h | ⟨x, hx, hb⟩
        · exact Or.inl h
        · exact Or.inr ⟨x, List.mem_cons_of_mem _ hx, hb⟩

end Ipv4

/-- **C28 (acceptance, exact).** For every string and every previous content: parsing succeeds exactly if the length is 7 to 15 and the
text consists of at most four decimal components separated by dots, all but the first non-empty; the first numbers
become the components' values reduced to 16 bits (signed), the others keep their previous values. -/
theorem C28_accepted_iff (t : List Byte) (hz : 0#8 ∉ t) (cs : List (List Byte)) (h : Parts t cs) (ip d : List Int) (hip : ip.length = 4) :
    parse t ip = .ok (true, d) ↔
      7 ≤ t.length ∧ t.length ≤ 15 ∧ cs.length ≤ 4 ∧ (∀ c ∈ cs, Decimal c) ∧ (∀ i c, cs[i]? = some c → 0 < i → c ≠ []) ∧
        d = cs.map (fun c => wrap16 (value c)) ++ ip.drop cs.length := by
  by_cases hl : 7 ≤ t.length ∧ t.length ≤ 15
  · rw [parse_walk h hz hl.1 hl.2, walk_true _ _ _ _ _ hip (by omega)]
    simp only [Acceptable, Nat.zero_add, List.take_zero, List.nil_append, forall_const]
    constructor
    · rintro ⟨a, ⟨b, c⟩, e⟩; exact ⟨hl.1, hl.2, a, b, c, e⟩
    · rintro ⟨_, _, a, b, c, e⟩; exact ⟨a, ⟨b, c⟩, e⟩
  · rw [parse, if_pos (by omega)]
    simp only [Res.ok.injEq, Prod.mk.injEq, Bool.false_eq_true, false_and, false_iff]
    omega

/-- Every text has components. -/
theorem C28_parts (t : List Byte) : ∃ cs, Parts t cs := parts_exists t

/-- **C28 (reading outside the string, exact).** The parser reads outside the string (through a null pointer) exactly if the length
is 7 to 15 and the second, third or fourth component is empty while everything before it is decimal. -/
theorem C28_undefined_iff (t : List Byte) (hz : 0#8 ∉ t) (cs : List (List Byte)) (h : Parts t cs) (ip : List Int) :
    parse t ip = .ub ↔
      7 ≤ t.length ∧ t.length ≤ 15 ∧ ∃ j, 0 < j ∧ j < 4 ∧ cs[j]? = some [] ∧
        ∀ i c, i < j → cs[i]? = some c → Decimal c ∧ (0 < i → c ≠ []) := by
  by_cases hl : 7 ≤ t.length ∧ t.length ≤ 15
  · rw [parse_walk h hz hl.1 hl.2, walk_ub _ _ _ _ (by omega)]
    simp only [Nat.zero_add, forall_const]
    constructor
    · rintro ⟨j, a, b, c, d⟩; exact ⟨hl.1, hl.2, j, b, c, a, d⟩
    · rintro ⟨_, _, j, b, c, a, d⟩; exact ⟨j, a, b, c, d⟩
  · rw [parse, if_pos (by omega)]
    simp only [reduceCtorEq, false_iff]
    omega

/-- **C28_partial.** Every well-formed address is accepted and gives exactly its octets, and the object is valid.  Missing: the
converse, see the violations below. -/
theorem C28_well_formed_partial (t : List Byte) (cs : List (List Byte)) (h : Parts t cs) (hw : WellFormed cs)
    (hlen : t.length ≤ 15) (o : Obj) (ho : o.ip.length = 4) (port : Int) :
    o.set t port = .ok (⟨cs.map (fun c => (value c : Int)), port⟩, true) ∧
      (⟨cs.map (fun c => (value c : Int)), port⟩ : Obj).valid = true := by
  obtain ⟨h4, hall⟩ := hw
  have hz : 0#8 ∉ t := by
    intro hm
    rw [h.1] at hm
    rcases mem_join_iff hm with e | ⟨c, hc, hb⟩
    · simp at e
    · exact (decimal_no (hall c hc).2.1).2 hb
  have hge : 7 ≤ t.length := by
    rw [h.1]
    match cs, h4, hall with
    | [a, b, c, d], _, hall =>
      have h1 := List.length_pos_iff.mpr (hall a (by simp)).1
      have h2 := List.length_pos_iff.mpr (hall b (by simp)).1
      have h3 := List.length_pos_iff.mpr (hall c (by simp)).1
      have h4 := List.length_pos_iff.mpr (hall d (by simp)).1
      simp [join]; omega
  have hmap : cs.map (fun c => wrap16 (value c)) = cs.map (fun c => (value c : Int)) := by
    apply List.map_congr_left
    intro c hc
    have := (hall c hc).2.2
    exact wrap16_id (by omega) (by omega)
  have hp := (C28_accepted_iff t hz cs h o.ip (cs.map (fun c => (value c : Int))) ho).mpr
    ⟨hge, hlen, by omega, fun c hc => (hall c hc).2.1, fun i c hc _ => (hall c (List.mem_of_getElem? hc)).1, by
      rw [hmap, h4, List.drop_eq_nil_of_le (by omega), List.append_nil]⟩
  constructor
  · simp only [Obj.set, hp]
  · simp only [Obj.valid, List.all_map, List.all_eq_true]
    intro c hc
    have := (hall c hc).2.2
    simp; omega

/-- **C28 (rejection).** A rejected text leaves the object invalid, with the least numbers and port their types have: exactly as a
default constructed one. -/
theorem C28_rejected (o o' : Obj) (t : List Byte) (port : Int) (h : o.set t port = .ok (o', false)) :
    o' = ⟨List.replicate 4 (-2 ^ 15), -2 ^ 31⟩ ∧ o' = reset ∧ o'.valid = false := by
  unfold Obj.set at h
  split at h <;> simp at h
  subst h
  exact ⟨rfl, rfl, rfl⟩

/-- The parser always returns or is undefined; it never hangs. -/
theorem C28_terminates (t : List Byte) (hz : 0#8 ∉ t) (ip : List Int) : parse t ip ≠ .loop := by
  obtain ⟨cs, h⟩ := parts_exists t
  by_cases hl : 7 ≤ t.length ∧ t.length ≤ 15
  · rw [parse_walk h hz hl.1 hl.2]; exact walk_ne_loop _ _ _ _
  · rw [parse, if_pos (by omega)]; simp

/-- "192.168.1.77" -/
def exampleParts : List (List Byte) := [[49#8, 57#8, 50#8], [49#8, 54#8, 56#8], [49#8], [55#8, 55#8]]

example : Parts (join exampleParts) exampleParts ∧ WellFormed exampleParts ∧ (join exampleParts).length ≤ 15 ∧
    (reset.ip.length = 4) := by
  refine ⟨⟨rfl, by decide, by decide⟩, by decide, by decide, rfl⟩

example : reset.set [49#8, 120#8] 80 = .ok (reset, false) := by decide

/-- The text has no terminator of its own if its components are decimal. -/
theorem Ipv4.decimal_text {t : List Byte} {cs : List (List Byte)} (h : Parts t cs) (hd : ∀ c ∈ cs, Decimal c) : 0#8 ∉ t := by
  intro hm
  rw [h.1] at hm
  rcases mem_join_iff hm with e | ⟨c, hc, hb⟩
  · simp at e
  · exact (decimal_no (hd c hc)).2 hb

/-- **C28, violated.** A text with fewer than four components is accepted, and the remaining numbers stay what they were: the
object is valid if they were in range. -/
theorem C28_few_components_violated (t : List Byte) (cs : List (List Byte)) (h : Parts t cs) (h4 : cs.length < 4)
    (hd : ∀ c ∈ cs, c ≠ [] ∧ Decimal c ∧ value c ≤ 255) (h7 : 7 ≤ t.length) (h15 : t.length ≤ 15) (o : Obj) (ho : o.ip.length = 4)
    (port : Int) :
    ∃ o', o.set t port = .ok (o', true) ∧ o'.ip = cs.map (fun c => (value c : Int)) ++ o.ip.drop cs.length ∧ o'.port = port ∧
      ((∀ i ∈ o.ip, 0 ≤ i ∧ i ≤ 255) → o'.valid = true) := by
  have hz := Ipv4.decimal_text h (fun c hc => (hd c hc).2.1)
  have hmap : cs.map (fun c => wrap16 (value c)) = cs.map (fun c => (value c : Int)) := by
    apply List.map_congr_left
    intro c hc
    have := (hd c hc).2.2
    exact wrap16_id (by omega) (by omega)
  have hp := (C28_accepted_iff t hz cs h o.ip _ ho).mpr
    ⟨h7, h15, by omega, fun c hc => (hd c hc).2.1, fun i c hc _ => (hd c (List.mem_of_getElem? hc)).1, rfl⟩
  refine ⟨⟨cs.map (fun c => (value c : Int)) ++ o.ip.drop cs.length, port⟩, by simp only [Obj.set, hp, hmap], rfl, rfl, ?_⟩
  intro hr
  simp only [Obj.valid, List.all_eq_true, List.mem_append, List.mem_map]
  rintro i (⟨c, hc, rfl⟩ | hi)
  · have := (hd c hc).2.2
    simp; omega
  · have := hr i (List.mem_of_mem_drop hi)
    simp; omega

/-- "100.200" over `10.20.30.40` gives `100.200.30.40`. -/
example : Parts [49#8, 48#8, 48#8, 46#8, 50#8, 48#8, 48#8] [[49#8, 48#8, 48#8], [50#8, 48#8, 48#8]] ∧
    (∀ c ∈ [[49#8, 48#8, 48#8], [50#8, 48#8, 48#8]], c ≠ [] ∧ Decimal c ∧ value c ≤ 255) ∧
    ((⟨[10, 20, 30, 40], 1⟩ : Obj).set [49#8, 48#8, 48#8, 46#8, 50#8, 48#8, 48#8] 80 = .ok (⟨[100, 200, 30, 40], 80⟩, true)) :=
  ⟨⟨rfl, by decide, by decide⟩, by decide, by decide⟩

/-- **C28, violated.** Components are reduced modulo 65536: two texts whose components differ by multiples of it are the same
address. -/
theorem C28_large_octet_violated (t t' : List Byte) (cs cs' : List (List Byte)) (h : Parts t cs) (h' : Parts t' cs')
    (h4 : cs.length = 4) (hd : ∀ c ∈ cs, c ≠ [] ∧ Decimal c) (hd' : ∀ c ∈ cs', c ≠ [] ∧ Decimal c)
    (hl : 7 ≤ t.length ∧ t.length ≤ 15) (hl' : 7 ≤ t'.length ∧ t'.length ≤ 15)
    (he : cs.map (fun c => value c % 65536) = cs'.map (fun c => value c % 65536)) (o : Obj) (ho : o.ip.length = 4) (port : Int) :
    ∃ o', o.set t port = .ok (o', true) ∧ o.set t' port = .ok (o', true) := by
  have h4' : cs'.length = 4 := by
    have := congrArg List.length he
    simpa [h4] using this.symm
  have key : ∀ n : Nat, wrap16 (n : Int) = wrap16 ((n % 65536 : Nat) : Int) := by
    intro n
    unfold wrap16
    rw [show ((n % 65536 : Nat) : Int) = (n : Int) % (65536 : Nat) by omega]
    exact (Int.emod_bmod (n : Int) 65536).symm
  have hm : cs.map (fun c => wrap16 (value c)) = cs'.map (fun c => wrap16 (value c)) := by
    have := congrArg (List.map fun n : Nat => wrap16 (n : Int)) he
    simpa only [List.map_map, Function.comp_def, ← key] using this
  have hp := (C28_accepted_iff t (Ipv4.decimal_text h (fun c hc => (hd c hc).2)) cs h o.ip _ ho).mpr
    ⟨hl.1, hl.2, by omega, fun c hc => (hd c hc).2, fun i c hc _ => (hd c (List.mem_of_getElem? hc)).1, rfl⟩
  have hp' := (C28_accepted_iff t' (Ipv4.decimal_text h' (fun c hc => (hd' c hc).2)) cs' h' o.ip _ ho).mpr
    ⟨hl'.1, hl'.2, by omega, fun c hc => (hd' c hc).2, fun i c hc _ => (hd' c (List.mem_of_getElem? hc)).1, rfl⟩
  rw [← hm, h4', ← h4] at hp'
  exact ⟨⟨cs.map (fun c => wrap16 (value c)) ++ o.ip.drop cs.length, port⟩, by simp only [Obj.set, hp], by simp only [Obj.set, hp']⟩

/-- "65537.0.0.1" and "1.0.0.1". -/
example : Parts [54#8, 53#8, 53#8, 51#8, 55#8, 46#8, 48#8, 46#8, 48#8, 46#8, 49#8] [[54#8, 53#8, 53#8, 51#8, 55#8], [48#8], [48#8], [49#8]] ∧
    Parts [49#8, 46#8, 48#8, 46#8, 48#8, 46#8, 49#8] [[49#8], [48#8], [48#8], [49#8]] ∧
    [[54#8, 53#8, 53#8, 51#8, 55#8], [48#8], [48#8], [49#8]].map (fun c => value c % 65536) =
      [[49#8], [48#8], [48#8], [49#8]].map (fun c => value c % 65536) :=
  ⟨⟨rfl, by decide, by decide⟩, ⟨rfl, by decide, by decide⟩, by decide⟩

/-- **C28.** An object is valid exactly if each of its numbers is an octet. -/
theorem C28_valid_iff (o : Obj) : o.valid = true ↔ ∀ i ∈ o.ip, ∃ n : Nat, n < 256 ∧ i = n := by
  simp only [Obj.valid, List.all_eq_true, Bool.and_eq_true, decide_eq_true_eq]
  constructor
  · intro h i hi
    have := h i hi
    exact ⟨i.toNat, by omega, by omega⟩
  · intro h i hi
    obtain ⟨n, hn, rfl⟩ := h i hi
    omega

example : (⟨[192, 168, 1, 255], 80⟩ : Obj).valid = true ∧ (⟨[192, 168, 1, 256], 80⟩ : Obj).valid = false := by decide

/-- **C28.** Constructing from a text is default constructing and setting the text. -/
theorem C28_ctor (t : List Byte) (port : Int) : Obj.ctor t port = (reset.set t port).bind fun p => .ok p.1 := by
  unfold Obj.ctor Obj.set
  split <;> rename_i h <;> simp [h, Res.bind]

/-- **C28.** `localhost(port)` is what the text "127.0.0.1" with that port gives, over any previous content and in the constructor. -/
theorem C28_localhost (o : Obj) (ho : o.ip.length = 4) (port : Int) :
    let t := [49#8, 50#8, 55#8, 46#8, 48#8, 46#8, 48#8, 46#8, 49#8]
    o.set t port = .ok (localhost port, true) ∧ Obj.ctor t port = .ok (localhost port) ∧ (localhost port).valid = true := by
  have h := C28_well_formed_partial [49#8, 50#8, 55#8, 46#8, 48#8, 46#8, 48#8, 46#8, 49#8] [[49#8, 50#8, 55#8], [48#8], [48#8], [49#8]]
    ⟨rfl, by decide, by decide⟩ (by decide) (by decide)
  refine ⟨(h o ho port).1, ?_, (h o ho port).2⟩
  rw [C28_ctor, (h reset rfl port).1]; rfl

example : reset.ip.length = 4 := rfl

/-- **C28.** A default constructed `Address` denotes 0.0.0.0: an object set from it is valid and has these octets. -/
theorem C28_default_address (o : Obj) (ho : o.ip.length = 4) :
    o.set (addressInit.takeWhile (· ≠ 0#8)) 0 = .ok (⟨[0, 0, 0, 0], 0⟩, true) ∧ addressInit.length = 16 ∧ 0#8 ∈ addressInit := by
  have h := C28_well_formed_partial (addressInit.takeWhile (· ≠ 0#8)) [[48#8], [48#8], [48#8], [48#8]]
    ⟨by decide, by decide, by decide⟩ (by decide) (by decide) o ho 0
  exact ⟨h.1, by decide, by decide⟩

/-- **C28, violated.** "1..2.3.4" makes the parser read through a null pointer. -/
theorem C28_empty_component_violated (o : Obj) (port : Int) :
    o.set [49#8, 46#8, 46#8, 50#8, 46#8, 51#8, 46#8, 52#8] port = .ub := by
  have h := (C28_undefined_iff [49#8, 46#8, 46#8, 50#8, 46#8, 51#8, 46#8, 52#8] (by decide)
    [[49#8], [], [50#8], [51#8], [52#8]] ⟨rfl, by decide, by decide⟩ o.ip).mpr
    ⟨by decide, by decide, 1, by decide, by decide, rfl, by
      intro i c hi hc
      have : i = 0 := by omega
      subst this
      simp at hc; subst hc
      exact ⟨by decide, by omega⟩⟩
  simp only [Obj.set, h]

/-- **C27 (bounds).** Whatever four numbers the object holds, valid or not, formatting writes 7 to 15 characters and a
terminator, all inside the 16-character buffer. -/
theorem C27_format_in_bounds (a b c d : Int) :
    ∃ text pad, format [a, b, c, d] = .ok (text ++ 0#8 :: pad) ∧ (text ++ 0#8 :: pad).length = 16 ∧ 7 ≤ text.length ∧ text.length ≤ 15 := by
  obtain ⟨pad, h⟩ := format_four a b c d
  exact ⟨_, pad, h⟩

/-- **C27_partial.** For octets `0..255` none of which is three-digit with a zero in the middle, the text up to the terminator is
the usual dotted decimal, and parsing it (whatever the target held) gives the same octets.  Missing: the 20 octet values
`100..109` and `200..209`, see below. -/
theorem C27_round_trip_partial (a b c d : Nat) (ha : a ≤ 255) (hb : b ≤ 255) (hc : c ≤ 255) (hd : d ≤ 255)
    (hgood : ∀ v ∈ [a, b, c, d], 100 ≤ v → v / 10 % 10 ≠ 0) (ip : List Int) (hip : ip.length = 4) :
    ∃ ta tb tc td pad, NatText a ta ∧ NatText b tb ∧ NatText c tc ∧ NatText d td ∧
      format [(a : Int), b, c, d] = .ok (join [ta, tb, tc, td] ++ 0#8 :: pad) ∧
      (join [ta, tb, tc, td] ++ 0#8 :: pad).takeWhile (· ≠ 0#8) = join [ta, tb, tc, td] ∧
      parse (join [ta, tb, tc, td]) ip = .ok (true, [(a : Int), b, c, d]) := by
  obtain ⟨pad, hf, _, h7, h15⟩ := format_four a b c d
  have hoct : ∀ v : Nat, v ≤ 255 → (100 ≤ v → v / 10 % 10 ≠ 0) →
      NatText v (octet (v : Int)) ∧ octet (v : Int) ≠ [] ∧ Decimal (octet (v : Int)) ∧ value (octet (v : Int)) = v := by
    intro v hv hg
    obtain ⟨h1, h2, h3, h4⟩ := octetDigits_ok v hv
    have hs : squash v = v := by
      unfold squash
      rw [if_neg]
      rintro ⟨x, y⟩
      exact hg x y
    obtain ⟨h5, h6⟩ := digits_text_decimal h1
    rw [octet_nat]
    exact ⟨⟨_, rfl, h1, h2, by rw [h3, hs], h4⟩, by simpa using h2, h5, by rw [h6, h3, hs]⟩
  have A := hoct a ha (hgood a (by simp))
  have B := hoct b hb (hgood b (by simp))
  have C := hoct c hc (hgood c (by simp))
  have D := hoct d hd (hgood d (by simp))
  have hall : ∀ x ∈ [octet (a : Int), octet (b : Int), octet (c : Int), octet (d : Int)], x ≠ [] ∧ Decimal x := by
    intro x hx
    simp only [List.mem_cons, List.not_mem_nil, or_false] at hx
    rcases hx with rfl | rfl | rfl | rfl
    · exact ⟨A.2.1, A.2.2.1⟩
    · exact ⟨B.2.1, B.2.2.1⟩
    · exact ⟨C.2.1, C.2.2.1⟩
    · exact ⟨D.2.1, D.2.2.1⟩
  have hz : 0#8 ∉ join [octet (a : Int), octet (b : Int), octet (c : Int), octet (d : Int)] := by
    intro hm
    rcases mem_join_iff hm with e | ⟨x, hx, hb⟩
    · simp at e
    · exact (decimal_no (hall x hx).2).2 hb
  refine ⟨_, _, _, _, pad, A.1, B.1, C.1, D.1, hf, takeWhile_text (fun b hb e => hz (e ▸ hb)), ?_⟩
  refine (C28_accepted_iff _ hz _ ⟨rfl, by simp, fun x hx => (decimal_no (hall x hx).2).1⟩ ip _ hip).mpr
    ⟨h7, h15, by simp, fun x hx => (hall x hx).2, fun i x hx _ => (hall x (List.mem_of_getElem? hx)).1, ?_⟩
  simp only [List.map_cons, List.map_nil, List.length_cons, List.length_nil]
  rw [A.2.2.2, B.2.2.2, C.2.2.2, D.2.2.2, List.drop_eq_nil_of_le (by omega), wrap16_id (by omega) (by omega), wrap16_id (by omega) (by omega),
    wrap16_id (by omega) (by omega), wrap16_id (by omega) (by omega)]
  rfl

example : ∀ v ∈ [192, 168, 255, 110], 100 ≤ v → v / 10 % 10 ≠ 0 := by decide

/-- **C27, violated.** An octet `100..109` or `200..209` is written with its middle zero missing: the text of `v` is the text
of a smaller number, so the address does not survive. -/
theorem C27_middle_zero_violated (v : Nat) (hv : v ≤ 255) (h : 100 ≤ v) (hz : v / 10 % 10 = 0) (ip : List Int) (hip : ip.length = 4) :
    ∃ text pad, format [(v : Int), 0, 0, 1] = .ok (text ++ 0#8 :: pad) ∧ 0#8 ∉ text ∧
      parse text ip = .ok (true, [((v / 100 * 10 + v % 10 : Nat) : Int), 0, 0, 1]) ∧ v / 100 * 10 + v % 10 < v := by
  obtain ⟨pad, hf, _, h7, h15⟩ := format_four v 0 0 1
  obtain ⟨h1, h2, h3, h4⟩ := octetDigits_ok v hv
  obtain ⟨h5, h6⟩ := digits_text_decimal h1
  have hs : squash v = v / 100 * 10 + v % 10 := by
    unfold squash
    rw [if_pos ⟨h, hz⟩]
  have e0 : octet 0 = [48#8] := by decide
  have e1 : octet 1 = [49#8] := by decide
  rw [e0, e1, octet_nat] at hf h7 h15
  have hne : (octetDigits v).map (fun d => BitVec.ofNat 8 (48 + d)) ≠ [] := by simpa using h2
  have hall : ∀ x ∈ [(octetDigits v).map (fun d => BitVec.ofNat 8 (48 + d)), [48#8], [48#8], [49#8]], x ≠ [] ∧ Decimal x := by
    intro x hx
    simp only [List.mem_cons, List.not_mem_nil, or_false] at hx
    rcases hx with rfl | rfl | rfl | rfl
    · exact ⟨hne, h5⟩
    · decide
    · decide
    · decide
  have hzt : 0#8 ∉ join [(octetDigits v).map (fun d => BitVec.ofNat 8 (48 + d)), [48#8], [48#8], [49#8]] := by
    intro hm
    rcases mem_join_iff hm with e | ⟨x, hx, hb⟩
    · simp at e
    · exact (decimal_no (hall x hx).2).2 hb
  refine ⟨_, pad, hf, hzt, ?_, by omega⟩
  refine (C28_accepted_iff _ hzt _ ⟨rfl, by simp, fun x hx => (decimal_no (hall x hx).2).1⟩ ip _ hip).mpr
    ⟨h7, h15, by simp, fun x hx => (hall x hx).2, fun i x hx _ => (hall x (List.mem_of_getElem? hx)).1, ?_⟩
  simp only [List.map_cons, List.map_nil, List.length_cons, List.length_nil]
  have v0 : wrap16 (value [48#8]) = 0 := by decide
  have v1 : wrap16 (value [49#8]) = 1 := by decide
  rw [h6, h3, hs, v0, v1, List.drop_eq_nil_of_le (by omega), wrap16_id (by omega) (by omega), List.append_nil]

example : 105 ≤ 255 ∧ 100 ≤ 105 ∧ 105 / 10 % 10 = 0 := by decide

/-- **C27, exactly.**  For every address: the text is the dotted decimal of the octets without middle zeros (`squash`), parsing it gives those, and the address survives if and
only if no octet is three-digit with a zero in the middle. -/
theorem C27_exact (a b c d : Nat) (ha : a ≤ 255) (hb : b ≤ 255) (hc : c ≤ 255) (hd : d ≤ 255) (ip : List Int) (hip : ip.length = 4) :
    ∃ ta tb tc td pad, NatText (squash a) ta ∧ NatText (squash b) tb ∧ NatText (squash c) tc ∧ NatText (squash d) td ∧
      format [(a : Int), b, c, d] = .ok (join [ta, tb, tc, td] ++ 0#8 :: pad) ∧
      (join [ta, tb, tc, td] ++ 0#8 :: pad).takeWhile (· ≠ 0#8) = join [ta, tb, tc, td] ∧
      parse (join [ta, tb, tc, td]) ip = .ok (true, [(squash a : Int), squash b, squash c, squash d]) ∧
      (parse (join [ta, tb, tc, td]) ip = .ok (true, [(a : Int), b, c, d]) ↔ ∀ v ∈ [a, b, c, d], 100 ≤ v → v / 10 % 10 ≠ 0) := by
  obtain ⟨pad, hf, _, h7, h15⟩ := format_four a b c d
  have hle : ∀ v : Nat, v ≤ 255 → squash v ≤ 255 := by
    intro v hv; unfold squash; split <;> omega
  have hoct : ∀ v : Nat, v ≤ 255 →
      NatText (squash v) (octet (v : Int)) ∧ octet (v : Int) ≠ [] ∧ Decimal (octet (v : Int)) ∧ value (octet (v : Int)) = squash v := by
    intro v hv
    obtain ⟨h1, h2, h3, h4⟩ := octetDigits_ok v hv
    obtain ⟨h5, h6⟩ := digits_text_decimal h1
    rw [octet_nat]
    exact ⟨⟨_, rfl, h1, h2, by rw [h3], h4⟩, by simpa using h2, h5, by rw [h6, h3]⟩
  have A := hoct a ha
  have B := hoct b hb
  have C := hoct c hc
  have D := hoct d hd
  have hall : ∀ x ∈ [octet (a : Int), octet (b : Int), octet (c : Int), octet (d : Int)], x ≠ [] ∧ Decimal x := by
    intro x hx
    simp only [List.mem_cons, List.not_mem_nil, or_false] at hx
    rcases hx with rfl | rfl | rfl | rfl
    · exact ⟨A.2.1, A.2.2.1⟩
    · exact ⟨B.2.1, B.2.2.1⟩
    · exact ⟨C.2.1, C.2.2.1⟩
    · exact ⟨D.2.1, D.2.2.1⟩
  have hz : 0#8 ∉ join [octet (a : Int), octet (b : Int), octet (c : Int), octet (d : Int)] := by
    intro hm
    rcases mem_join_iff hm with e | ⟨x, hx, hb⟩
    · simp at e
    · exact (decimal_no (hall x hx).2).2 hb
  have hp : parse (join [octet (a : Int), octet (b : Int), octet (c : Int), octet (d : Int)]) ip =
      .ok (true, [(squash a : Int), squash b, squash c, squash d]) := by
    refine (C28_accepted_iff _ hz _ ⟨rfl, by simp, fun x hx => (decimal_no (hall x hx).2).1⟩ ip _ hip).mpr
      ⟨h7, h15, by simp, fun x hx => (hall x hx).2, fun i x hx _ => (hall x (List.mem_of_getElem? hx)).1, ?_⟩
    have := hle a ha
    have := hle b hb
    have := hle c hc
    have := hle d hd
    simp only [List.map_cons, List.map_nil, List.length_cons, List.length_nil]
    rw [A.2.2.2, B.2.2.2, C.2.2.2, D.2.2.2, List.drop_eq_nil_of_le (by omega), wrap16_id (by omega) (by omega), wrap16_id (by omega) (by omega),
      wrap16_id (by omega) (by omega), wrap16_id (by omega) (by omega)]
    rfl
  have hfix : ∀ v : Nat, squash v = v ↔ (100 ≤ v → v / 10 % 10 ≠ 0) := by
    intro v; unfold squash; split <;> omega
  refine ⟨_, _, _, _, pad, A.1, B.1, C.1, D.1, hf, takeWhile_text (fun b hb e => hz (e ▸ hb)), hp, ?_⟩
  rw [hp]
  simp only [Res.ok.injEq, Prod.mk.injEq, true_and, List.cons.injEq, and_true, List.mem_cons, List.not_mem_nil, or_false, forall_eq_or_imp, forall_eq,
    Int.natCast_inj, hfix]

-- 10.0.205.1 comes back as 10.0.25.1
example : squash 10 = 10 ∧ squash 0 = 0 ∧ squash 205 = 25 ∧ squash 1 = 1 := by decide

namespace Flame
open Ipv4Spec Ipv4
example := C28_accepted_iff (join exampleParts) (by decide) exampleParts ⟨rfl, by decide, by decide⟩ reset.ip [192, 168, 1, 77] rfl
example := C28_undefined_iff (join [[49#8, 57#8, 50#8], [], [49#8, 54#8], [49#8]]) (by decide) [[49#8, 57#8, 50#8], [], [49#8, 54#8], [49#8]]
  ⟨rfl, by decide, by decide⟩ reset.ip
example := C28_well_formed_partial (join exampleParts) exampleParts ⟨rfl, by decide, by decide⟩ (by decide) (by decide) reset rfl 80
example := C28_rejected reset reset [49#8, 120#8] 80 (by decide)
example := C28_terminates (join exampleParts) (by decide) reset.ip
example := C28_default_address reset rfl
end Flame

end Flame
