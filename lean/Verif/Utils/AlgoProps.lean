import Verif.Utils.Algo
import Verif.Stream.RamProps

/-! # C53: `copy`, `countIterations`, `foreach` -/

namespace Flame
open Algo

namespace AlgoLemmas
variable {α σ : Type}
open RamLemmas Ram

/-- Where the element written at `o + j` comes from. -/
def src (s o j : Nat) : Nat := if s < o then s + j % (o - s) else s + j

theorem copyLoop_ok {mem₀ : List α} {s e o : Nat} (hse : s ≤ e) (he : e ≤ mem₀.length) (ho : o + (e - s) ≤ mem₀.length) :
    ∀ k i (mem : List α) (f : Nat), i + k = e - s → mem.length = mem₀.length →
      (∀ x, mem[x]? = if o ≤ x ∧ x < o + i then mem₀[src s o (x - o)]? else mem₀[x]?) → k < f →
      ∃ mem', copyLoop e f mem (s + i) (o + i) i = .ok (mem', e - s) ∧ mem'.length = mem₀.length ∧
        ∀ x, mem'[x]? = if o ≤ x ∧ x < o + (e - s) then mem₀[src s o (x - o)]? else mem₀[x]? := by
  intro k
  induction k with
  | zero =>
    intro i mem f hi hl hm hf
    obtain ⟨f, rfl⟩ : ∃ g, f = g + 1 := ⟨f - 1, by omega⟩
    refine ⟨mem, ?_, hl, ?_⟩
    · rw [copyLoop, if_pos (by omega), show i = e - s by omega]
    · intro x; rw [hm x, show i = e - s by omega]
  | succ k ih =>
    intro i mem f hi hl hm hf
    obtain ⟨f, rfl⟩ : ∃ g, f = g + 1 := ⟨f - 1, by omega⟩
    have hread : mem[s + i]? = mem₀[src s o i]? := by
      rw [hm]
      by_cases h : o ≤ s + i ∧ s + i < o + i
      · rw [if_pos h]
        have hso : s < o := by omega
        simp only [src, if_pos hso]
        rw [show s + i - o = i - (o - s) by omega, ← Nat.mod_eq_sub_mod (by omega)]
      · rw [if_neg h]
        unfold src
        split
        · rename_i hso
          rw [Nat.mod_eq_of_lt (by omega)]
        · rfl
    have hlt : s + i < mem₀.length := by omega
    obtain ⟨x, hx⟩ : ∃ x, mem[s + i]? = some x := ⟨_, List.getElem?_eq_getElem (by omega)⟩
    rw [copyLoop, if_neg (by omega), hx]
    simp only
    rw [if_pos (by omega)]
    refine ih (i + 1) (mem.set (o + i) x) f (by omega) (by simpa using hl) (fun y => ?_) (by omega)
    rw [List.getElem?_set]
    by_cases hy : o + i = y
    · subst hy
      rw [if_pos rfl, if_pos (by omega), if_pos (by omega), show o + i - o = i by omega, ← hread, hx]
    · rw [if_neg hy, hm y]
      by_cases h2 : o ≤ y ∧ y < o + i
      · rw [if_pos h2, if_pos (by omega)]
      · rw [if_neg h2, if_neg (by omega)]

theorem copyLoop_short {mem₀ : List α} {s e o : Nat} (he : e ≤ mem₀.length) (ho : mem₀.length < o + (e - s)) (hse : s ≤ e) :
    ∀ k i (mem : List α) (f : Nat), 0 < k → i + k = e - s → mem.length = mem₀.length → k < f → copyLoop e f mem (s + i) (o + i) i = .ub := by
  intro k
  induction k with
  | zero => intro i mem f h0 hi hl hf; omega
  | succ k ih =>
    intro i mem f h0 hi hl hf
    obtain ⟨f, rfl⟩ : ∃ g, f = g + 1 := ⟨f - 1, by omega⟩
    obtain ⟨x, hx⟩ : ∃ x, mem[s + i]? = some x := ⟨_, List.getElem?_eq_getElem (by omega)⟩
    rw [copyLoop, if_neg (by omega), hx]
    simp only
    by_cases h : o + i < mem.length
    · rw [if_pos h]
      exact ih (i + 1) _ f (by omega) (by omega) (by simpa using hl) (by omega)
    · rw [if_neg h]

theorem countLoop_path {w : Way} {n e : Nat} : ∀ (ps : List Nat) (p c f : Nat), Path w n e p ps → ps.length < f →
    countLoop w n e f p c = .ok (c + ps.length) := by
  intro ps
  induction ps with
  | nil =>
    intro p c f hp hf
    obtain ⟨f, rfl⟩ : ∃ g, f = g + 1 := ⟨f - 1, by simp at hf; omega⟩
    rw [countLoop, if_pos (show p = e from hp)]; rfl
  | cons q qs ih =>
    intro p c f hp hf
    obtain ⟨f, rfl⟩ : ∃ g, f = g + 1 := ⟨f - 1, by omega⟩
    obtain ⟨h1, _, h3, h4⟩ := hp
    rw [countLoop, if_neg h1, if_pos h3, ih _ _ _ h4 (by simp at hf; omega)]
    simp only [List.length_cons]
    congr 1; omega

/-- What visiting the positions `ps` in order does. -/
def visit (func : σ → α → σ × α) : σ → List α → List Nat → σ × List α
  | st, mem, [] => (st, mem)
  | st, mem, p :: ps => match mem[p]? with
    | none => (st, mem)
    | some x => visit func (func st x).1 (mem.set p (func st x).2) ps

theorem foreachLoop_path {w : Way} {func : σ → α → σ × α} {n e : Nat} : ∀ (ps : List Nat) (p : Nat) (st : σ) (mem : List α) (f : Nat),
    mem.length = n → Path w n e p ps → ps.length < f → foreachLoop w func e f st mem p = .ok (visit func st mem ps) := by
  intro ps
  induction ps with
  | nil =>
    intro p st mem f hn hp hf
    obtain ⟨f, rfl⟩ : ∃ g, f = g + 1 := ⟨f - 1, by simp at hf; omega⟩
    rw [foreachLoop, if_pos (show p = e from hp)]; rfl
  | cons q qs ih =>
    intro p st mem f hn hp hf
    obtain ⟨f, rfl⟩ : ∃ g, f = g + 1 := ⟨f - 1, by omega⟩
    obtain ⟨h1, rfl, h3, h4⟩ := hp
    obtain ⟨x, hx⟩ : ∃ x, mem[q]? = some x := ⟨_, List.getElem?_eq_getElem (by omega)⟩
    rw [foreachLoop, if_neg h1, hx]
    simp only
    rw [ih _ _ _ _ (by simpa using hn) (by rw [hn]; exact h4) (by simp at hf; omega), visit, hx]

/-- Specification: what the calls of `func` leave in the elements they are given one after another. -/
def written (func : σ → α → σ × α) : σ → List α → List α
  | _, [] => []
  | st, x :: xs => (func st x).2 :: written func (func st x).1 xs

/-- Visiting distinct positions: the state has seen the elements in order, each position holds its new element. -/
theorem visit_nodup {func : σ → α → σ × α} : ∀ (ps : List Nat) (st : σ) (mem : List α), ps.Nodup → (∀ p ∈ ps, p < mem.length) →
    (visit func st mem ps).1 = (bytes mem ps).foldl (fun s x => (func s x).1) st ∧
      (visit func st mem ps).2.length = mem.length ∧ (∀ x, x ∉ ps → (visit func st mem ps).2[x]? = mem[x]?) ∧
      bytes (visit func st mem ps).2 ps = written func st (bytes mem ps) := by
  intro ps
  induction ps with
  | nil => intro st mem _ _; exact ⟨rfl, rfl, fun _ _ => rfl, rfl⟩
  | cons p ps ih =>
    intro st mem hn hin
    obtain ⟨hnp, hn2⟩ := List.nodup_cons.mp hn
    have hp := hin p (by simp)
    obtain ⟨x, hx⟩ : ∃ x, mem[p]? = some x := ⟨_, List.getElem?_eq_getElem hp⟩
    obtain ⟨i1, i2, i3, i4⟩ := ih (func st x).1 (mem.set p (func st x).2) hn2 (fun q hq => by
      rw [List.length_set]; exact hin q (by simp [hq]))
    rw [visit, hx]
    simp only
    have hb : bytes (mem.set p (func st x).2) ps = bytes mem ps := by
      unfold bytes
      clear i1 i2 i3 i4 ih hin hn hn2
      induction ps with
      | nil => rfl
      | cons q ps ih =>
        have hpq : p ≠ q := fun e => hnp (by simp [e])
        simp only [List.filterMap_cons, List.getElem?_set_ne hpq]
        rw [ih fun e => hnp (by simp [e])]
    refine ⟨?_, by rw [i2, List.length_set], fun y hy => ?_, ?_⟩
    · rw [i1, hb]
      simp [bytes, hx]
    · rw [i3 y fun e => hy (by simp [e]), List.getElem?_set_ne]
      exact fun e => hy (by simp [e])
    · have hx' : (visit func (func st x).1 (mem.set p (func st x).2) ps).2[p]? = some (func st x).2 := by
        rw [i3 p hnp, List.getElem?_set_self hp]
      rw [hb] at i4
      have e1 : ∀ m : List α, bytes m (p :: ps) = (m[p]?).toList ++ bytes m ps := by
        intro m
        unfold bytes
        rw [List.filterMap_cons]
        cases m[p]? <;> rfl
      rw [e1, e1, hx, hx', i4]
      rfl

end AlgoLemmas
open AlgoLemmas

variable {α σ : Type}

/-- C53 (partial: the destination has room, and does not start inside the source): exactly the source's elements are written to
the destination, nothing else changes, and the number of elements is returned. -/
theorem C53_copy_partial (mem : List α) (s e o : Nat) (hse : s ≤ e) (he : e ≤ mem.length) (ho : o + (e - s) ≤ mem.length)
    (hd : o ≤ s ∨ e ≤ o) :
    copy mem s e o = .ok (mem.take o ++ (mem.drop s).take (e - s) ++ mem.drop (o + (e - s)), e - s) := by
  obtain ⟨mem', h1, h2, h3⟩ := copyLoop_ok hse he ho (e - s) 0 mem (mem.length + 1) (by omega) rfl (fun x => by rw [if_neg (by omega)]) (by omega)
  simp only [Nat.add_zero] at h1
  rw [copy, h1]
  congr 2
  apply List.ext_getElem?
  intro x
  rw [h3 x]
  have hlen : (mem.take o).length = o := by rw [List.length_take]; omega
  have hlen2 : ((mem.drop s).take (e - s)).length = e - s := by rw [List.length_take, List.length_drop]; omega
  by_cases h : o ≤ x ∧ x < o + (e - s)
  · rw [if_pos h, List.getElem?_append_left (by rw [List.length_append]; omega), List.getElem?_append_right (by omega), hlen,
      List.getElem?_take_of_lt (by omega), List.getElem?_drop]
    unfold src
    split
    · rw [Nat.mod_eq_of_lt (by omega)]
    · rfl
  · rw [if_neg h]
    rcases Nat.lt_or_ge x o with hx | hx
    · rw [List.getElem?_append_left (by rw [List.length_append]; omega), List.getElem?_append_left (by omega), List.getElem?_take_of_lt hx]
    · rw [List.getElem?_append_right (by rw [List.length_append]; omega), List.getElem?_drop, List.length_append, hlen, hlen2]
      congr 1; omega

/-- Copying between two places, and within overlapping ones towards the front. -/
example : copy [1, 2, 3, 4, 5, 6] 0 2 3 = .ok ([1, 2, 3, 1, 2, 6], 2) ∧ copy [1, 2, 3, 4, 5, 6] 2 6 1 = .ok ([1, 3, 4, 5, 6, 6], 4) := by
  decide

/-- C53 violated: when the destination starts inside the source, what is written repeats the elements in between. -/
theorem C53_copy_overlap (mem : List α) (s e o : Nat) (he : e ≤ mem.length) (ho : o + (e - s) ≤ mem.length) (hso : s < o) (hoe : o < e) :
    ∃ mem', copy mem s e o = .ok (mem', e - s) ∧ ∀ j, j < e - s → mem'[o + j]? = mem[s + j % (o - s)]? := by
  obtain ⟨mem', h1, h2, h3⟩ := copyLoop_ok (s := s) (by omega) he ho (e - s) 0 mem (mem.length + 1) (by omega) rfl
    (fun x => by rw [if_neg (by omega)]) (by omega)
  simp only [Nat.add_zero] at h1
  refine ⟨mem', h1, fun j hj => ?_⟩
  rw [h3, if_pos (by omega), show o + j - o = j by omega, src, if_pos hso]

example : copy [1, 2, 3, 4, 5, 6] 0 4 2 = .ok ([1, 2, 1, 2, 1, 2], 4) := by decide

/-- C53 violated: a destination with less room than the source has elements is overrun (the length of the destination is not
a parameter). -/
theorem C53_copy_short_ub (mem : List α) (s e o : Nat) (hse : s < e) (he : e ≤ mem.length) (ho : mem.length < o + (e - s)) :
    copy mem s e o = .ub :=
  copyLoop_short he ho (Nat.le_of_lt hse) (e - s) 0 mem (mem.length + 1) (by omega) (by omega) rfl (by omega)

example : copy [1, 2, 3, 4] 0 3 2 = .ub := by decide

/-- C53: `countIterations` is the number of elements of a linear or circular range. -/
theorem C53_count (w : Ram.Way) (n s e : Nat) (h : w.inside n s e) : count w n s e = .ok (Ram.spots w n s e).length := by
  obtain ⟨h1, h2⟩ := RamLemmas.path_spots h
  rw [count, countLoop_path _ _ _ _ h1 (by omega), Nat.zero_add]

example : count .circular 5 3 1 = .ok 3 ∧ count .linear 5 1 4 = .ok 3 := by decide

/-- C53: `foreach` calls the function once for each element of a linear or circular range, in order, with the element's value
before the call, and changes no other element. -/
theorem C53_foreach (w : Ram.Way) (func : σ → α → σ × α) (st : σ) (mem : List α) (s e : Nat) (h : w.inside mem.length s e) :
    ∃ mem', foreach w func st mem s e =
        .ok ((Ram.bytes mem (Ram.spots w mem.length s e)).foldl (fun q x => (func q x).1) st, mem') ∧
      mem'.length = mem.length ∧ (∀ x, x ∉ Ram.spots w mem.length s e → mem'[x]? = mem[x]?) ∧
      Ram.bytes mem' (Ram.spots w mem.length s e) = written func st (Ram.bytes mem (Ram.spots w mem.length s e)) := by
  obtain ⟨h1, h2⟩ := RamLemmas.path_spots h
  have hn := RamLemmas.spots_nodup h
  have hin : ∀ p ∈ Ram.spots w mem.length s e, p < mem.length := by
    intro p hp
    cases w with
    | linear =>
      obtain ⟨i, hi, rfl⟩ := List.mem_map.mp hp
      have := List.mem_range.mp hi
      have := h.2
      omega
    | circular =>
      obtain ⟨i, hi, rfl⟩ := List.mem_map.mp hp
      exact Nat.mod_lt _ (by have := h.1; omega)
  obtain ⟨v1, v2, v3, v4⟩ := visit_nodup (func := func) _ st mem hn hin
  refine ⟨_, ?_, v2, v3, v4⟩
  rw [foreach, foreachLoop_path _ _ _ _ _ rfl h1 (by omega), ← v1]

example : foreach .circular (fun s x => (s ++ [x], x * 10)) [] [1, 2, 3, 4] 3 1 = .ok ([4, 1], [10, 2, 3, 40]) := by decide

end Flame
