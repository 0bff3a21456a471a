import Verif.String.Memory
import Verif.String.Lemmas

/-! # C168: pointers into a `String` with reserved room -/

namespace Flame
namespace StrMem
open Str (Full IsC write_tail)
variable {α : Type} [DecidableEq α] {z : α}

/-- Appending one character: `true` as a temporary (String.hpp 580-594), `false` as an object with a name (564-578). -/
def push1 (z : α) (can : Nat → Bool) (f : Nat) (s : St α) (p : Bool × α) : Res (St α) :=
  if p.1 then pushBackMove z can f s p.2 else pushBack z can f s p.2

/-- Nothing was asked of the allocator, and the characters lie where they lay. -/
def InPlace (s s' : St α) : Prop := s'.blk = s.blk ∧ s'.log = s.log ∧ s'.next = s.next

theorem push1_fits {s : St α} {xs : List α} (h : Full z s.str xs) (can : Nat → Bool) (p : Bool × α) (hl : xs.length + 1 < s.str.cap) (f : Nat) :
    ∃ s', push1 z can (f + 1) s p = .ok s' ∧ Full z s'.str (xs ++ [p.2]) ∧ s'.str.cap = s.str.cap ∧ InPlace s s' := by
  obtain ⟨b, h1, h2⟩ := write_tail (ys := [p.2]) h (by simpa using hl)
  refine ⟨{ s with str := ⟨b, s.str.cap, xs.length + 1⟩ }, ?_, h2, rfl, rfl, rfl, rfl⟩
  simp only [Raw.wrList, Res.bind_assoc, Res.ok_bind, List.length_singleton] at h1
  have hlt : s.str.len < s.str.cap := by rw [h.len]; omega
  have hlt' : s.str.len + 1 < s.str.cap := by rw [h.len]; omega
  rw [Res.bind_eq_ok] at h1
  obtain ⟨b1, h3, h4⟩ := h1
  unfold push1
  split
  · simp only [pushBackMove, hlt', if_true]
    rw [h.len]; simp [h3, h4]
  · simp only [pushBack, hlt, if_true]
    rw [h.len]; simp [h3, h4]

theorem resize_full {s : St α} {xs : List α} (h : Full z s.str xs) {can : Nat → Bool} {n : Nat} (hc : s.str.cap < n → can n = true) :
    ∃ s', resize z can s n = .ok s' ∧ Full z s'.str xs ∧ s'.str.cap = max s.str.cap n := by
  obtain ⟨t, a, b, d⟩ := Str.resize_full h n
  unfold Str.resize at a
  unfold resize
  rw [if_pos h.nonempty] at a ⊢
  split
  · rename_i hn
    rw [if_pos hn] at a
    cases a
    rw [hc hn]
    exact ⟨_, rfl, b, d⟩
  · rename_i hn
    exact ⟨s, rfl, h, by omega⟩

end StrMem
open StrMem
open Str (Full IsC rawLen_ok rawTake_ok write_tail)

variable {α : Type} [DecidableEq α] {z : α}

/-- The pushes of a list, one after the other, each with its own allocator. -/
def StrMem.pushAll (z : α) (f : Nat) (s : St α) (ps : List ((Nat → Bool) × Bool × α)) : Res (St α) :=
  runOps (fun s p => push1 z p.1 f s p.2) s ps

theorem StrMem.pushAll_fits (f : Nat) : ∀ (ps : List ((Nat → Bool) × Bool × α)) {s : St α} {xs : List α}, Full z s.str xs →
    xs.length + ps.length < s.str.cap →
    ∃ s', pushAll z (f + 1) s ps = .ok s' ∧ Full z s'.str (xs ++ ps.map (·.2.2)) ∧ s'.str.cap = s.str.cap ∧ InPlace s s' := by
  intro ps
  induction ps with
  | nil => intro s xs h _; exact ⟨s, rfl, by simpa using h, rfl, rfl, rfl, rfl⟩
  | cons p ps ih =>
    intro s xs h hl
    simp only [List.length_cons] at hl
    obtain ⟨s1, a1, b1, c1, d1⟩ := push1_fits h p.1 p.2 (by omega) f
    obtain ⟨s2, a2, b2, c2, d2⟩ := ih b1 (by simp; omega)
    refine ⟨s2, (runOps_cons_ok (step := fun (s : St α) (p : (Nat → Bool) × Bool × α) => push1 z p.1 (f + 1) s p.2) a1).trans a2, by simpa using b2, by omega, ?_⟩
    exact ⟨d2.1.trans d1.1, d2.2.1.trans d1.2.1, d2.2.2.trans d1.2.2⟩

/-- **C168, strings with room.** A string that has storage and has reserved `n` characters takes up to `n` further ones in place, whatever has become of the
allocator. -/
theorem C168_string_room {s : St α} {xs : List α} (h : Full z s.str xs) {can : Nat → Bool} {n : Nat} (hc : can (s.str.cap + n) = true) :
    ∃ s', reserve z can s n = .ok s' ∧ Full z s'.str xs ∧ ∀ (f : Nat) (ps : List ((Nat → Bool) × Bool × α)), ps.length ≤ n →
      ∃ t, pushAll z (f + 1) s' ps = .ok t ∧ Full z t.str (xs ++ ps.map (·.2.2)) ∧ InPlace s' t := by
  obtain ⟨s', a, b, c⟩ := StrMem.resize_full h (can := can) (n := s.str.cap + n) (fun _ => hc)
  refine ⟨s', a, b, fun f ps hp => ?_⟩
  have := h.lt
  obtain ⟨t, h1, h2, _, h3⟩ := pushAll_fits f ps b (by omega)
  exact ⟨t, h1, h2, h3⟩

/-- **C168 fails for an empty string.** A string without storage that has reserved `n` characters and takes `n`, the last of them an object with a name, writes the
terminator behind its allocation. -/
theorem C168_string_empty_violated {s : St α} (hs : s.str = Str.empty) {can : Nat → Bool} {n : Nat} (hc : can (n + 1) = true)
    (ps : List ((Nat → Bool) × Bool × α)) (hp : ps.length = n) (can' : Nat → Bool) (c : α) (f : Nat) :
    (do let s ← reserve z can s (n + 1)
        pushAll z (f + 1) s (ps ++ [(can', false, c)])) = .ub := by
  obtain ⟨t, a, b, d⟩ := Str.resize_ok (z := z) (s := s.str) (xs := []) (.inr ⟨hs, rfl⟩) (n := s.str.cap + (n + 1)) (by omega)
  have hcap : s.str.cap = 0 := by rw [hs]; rfl
  have hbuf : s.str.buf = [] := by rw [hs]; rfl
  rw [hcap, Nat.zero_add] at a d
  obtain ⟨s', a', rfl⟩ : ∃ s', resize z can s (n + 1) = .ok s' ∧ s'.str = t := by
    unfold resize
    unfold Str.resize at a
    rw [if_neg (by simp [hbuf])] at a ⊢
    rw [hc, if_pos rfl]
    simp only [Res.bind_eq_ok] at a
    obtain ⟨b0, h1, h2⟩ := a
    cases h2
    exact ⟨_, by rw [h1]; rfl, rfl⟩
  simp only [reserve, hcap, Nat.zero_add, a', Res.ok_bind]
  obtain ⟨t, h1, h2, h3, _⟩ := pushAll_fits f ps b (by simp; omega)
  unfold pushAll at h1 ⊢
  rw [runOps_append h1]
  have hub : push1 z can' (f + 1) t (false, c) = .ub := by
    have hlt : t.str.len < t.str.cap := by rw [h2.len]; simp; omega
    have hb := h2.blen
    have hl := h2.len
    simp only [List.nil_append, List.length_map] at hl
    simp only [push1, pushBack, hlt, if_true, Bool.false_eq_true, if_false]
    rw [hl, Raw.wr_ok c (by omega)]
    simp only [Res.ok_bind]
    rw [Raw.wr_ub z (by simp; omega)]
    rfl
  simp [runOps, hub]

/-- **C168, appending a text, exactly.** A C string is appended in place exactly if two characters more than it needs are free behind the terminated text;
otherwise, if the allocator has nothing left, appending is undefined even though the text would fit. -/
theorem C168_string_append_exact {s : St α} {xs ys : List α} {p : CPtr α} (h : Full z s.str xs) (hp : IsC z p ys) (f : Nat) {can : Nat → Bool}
    (hc : ∀ n, can n = false) :
    (xs.length + ys.length + 2 < s.str.cap → ∃ t, pushBackRaw z can (f + 2) s p = .ok t ∧ Full z t.str (xs ++ ys) ∧ InPlace s t) ∧
    (¬ xs.length + ys.length + 2 < s.str.cap → s.str.cap < wanted s.str ys.length → pushBackRaw z can (f + 2) s p = .ub) := by
  have hr := rawLen_ok hp
  have ht := rawTake_ok hp
  have hl := h.len
  constructor
  · intro hlt
    obtain ⟨b, h1, h2⟩ := write_tail (ys := ys) h (by omega)
    refine ⟨{ s with str := ⟨b, s.str.cap, xs.length + ys.length⟩ }, ?_, h2, rfl, rfl, rfl⟩
    rw [Res.bind_eq_ok] at h1
    obtain ⟨b1, h3, h4⟩ := h1
    simp only [pushBackRaw, hr, Res.ok_bind, hl, hlt, if_true, ht, h3, h4]
  · intro hlt hw
    simp only [pushBackRaw, hr, Res.ok_bind, hl, hlt, if_false]
    have e : resize z can s (wanted s.str ys.length) = .ok { s with str := ⟨[], wanted s.str ys.length, s.str.len⟩, blk := none } := by
      unfold resize
      rw [if_pos h.nonempty, if_pos hw, hc]; rfl
    rw [e]
    simp only [Res.ok_bind, hl]
    by_cases c2 : xs.length + ys.length + 2 < wanted s.str ys.length
    · rw [if_pos c2, ht]
      simp only [Res.ok_bind]
      cases ys with
      | nil => simp [Raw.wrList, Raw.wr]
      | cons y ys => simp [Raw.wrList, Raw.wr]
    · rw [if_neg c2]
      simp [resize, hc]

/-- **C168 fails for appending a text of the reserved size.** A string just constructed from a text (or copied) that has been granted room for `n` characters
asks for memory again when a text of `n` or of `n - 1` characters is appended, and breaks if there is none. -/
theorem C168_string_append_violated {s : St α} {xs ys : List α} {p : CPtr α} (h : Full z s.str xs) (hfit : s.str.cap = xs.length + 1) (hp : IsC z p ys)
    {can can' : Nat → Bool} {n : Nat} (hn : ys.length = n ∨ ys.length + 1 = n) (hc : can (s.str.cap + n) = true) (hc' : ∀ k, can' k = false) (f : Nat) :
    (do let s ← reserve z can s n
        pushBackRaw z can' (f + 2) s p) = .ub := by
  obtain ⟨s', a, b, c⟩ := StrMem.resize_full h (can := can) (n := s.str.cap + n) (fun _ => hc)
  simp only [reserve, a, Res.ok_bind]
  refine (C168_string_append_exact b hp f hc').2 (by omega) ?_
  have := b.len
  have hlt := h.lt
  unfold wanted Str.nextCap
  split <;> omega

-- non-vacuity: "ab" reserving 3 and taking 3; the empty string reserving 2 and taking 2; "ab" reserving 3 and taking "cde"
example : (do let s ← ofRaw 0 (fun _ => true) 0 [] (some [1, 2, 0])
              let s ← reserve 0 (fun _ => true) s 3
              pushAll 0 1 s [(fun _ => false, true, 3), (fun _ => false, false, 4), (fun _ => false, false, 5)])
    = .ok ⟨⟨[some 1, some 2, some 3, some 4, some 5, some 0], 6, 5⟩, some 1, 2, [.made 1, .closed 0, .made 0]⟩ := by decide
example : (do let s ← reserve 0 (fun _ => true) (⟨Str.empty, none, 0, []⟩ : St Nat) 2
              pushAll 0 1 s [(fun _ => true, false, 1), (fun _ => true, false, 2)]) = .ub := by decide
example : (do let s ← ofRaw 0 (fun _ => true) 0 [] (some [1, 2, 0])
              let s ← reserve 0 (fun _ => true) s 3
              pushBackRaw 0 (fun _ => false) 2 s (some [3, 4, 5, 0])) = .ub := by decide

namespace Flame
open StrMem
private theorem room_example : Str.Full 0 (⟨[some 1, some 2, some 0, none, none, none], 6, 2⟩ : Str Nat) [1, 2] :=
  ⟨rfl, rfl, by decide, by
    intro i hi
    have : i = 0 ∨ i = 1 ∨ i = 2 := by simp at hi; omega
    rcases this with rfl | rfl | rfl <;> rfl⟩
example := C168_string_room (s := (⟨_, some 0, 1, [.made 0]⟩ : St Nat)) room_example (can := fun _ => true) (n := 3) rfl
example := C168_string_empty_violated (z := 0) (s := (⟨Str.empty, none, 0, []⟩ : St Nat)) rfl (can := fun _ => true) (n := 1) rfl [(fun _ => true, false, 1)] rfl
  (fun _ => true) 2 4
example := C168_string_append_exact (s := (⟨_, some 0, 1, [.made 0]⟩ : St Nat)) room_example (ys := [7]) (p := some [7, 0])
  ⟨by decide, [], rfl⟩ 4 (can := fun _ => false) (fun _ => rfl)
end Flame

end Flame
