import Verif.String.Lemmas
import Verif.String.Spec

/-!
# Properties of `BasicString` (C16 - C20)
-/

namespace Flame
open Str StrSpec
variable {α : Type} [DecidableEq α] {z : α}

namespace Str

/-- One call on a string object. -/
def step (z : α) (f : Nat) (s : Str α) : Op α → Res (Str α)
  | .append ys rest => pushBackRaw z f s (some (ys ++ z :: rest))
  | .appendNull => pushBackRaw z f s none
  | .assign ys rest => assignRaw z f s (some (ys ++ z :: rest))
  | .popBack => popBack z s
  | .erase i => erase z s i
  | .eraseRange i j => eraseRange z s i j
  | .insert i c => insert z f s i c
  | .clean => clean z s
  | .copySelf => copy z s

/-- What a user can see of a string that holds the text `l`: its length, its characters, and `data()` as a C string; the
terminator lies inside the allocation. -/
structure Shows (z : α) (s : Str α) (l : List α) : Prop where
  length : s.len = l.length
  chars : chars s = .ok l
  cstr : cString z s = .ok l
  room : s.len < s.cap
  alloc : s.buf.length = s.cap

theorem Full.shows {s : Str α} {l : List α} (h : Full z s l) (hz : ∀ c ∈ l, c ≠ z) : Shows z s l :=
  ⟨h.len, h.chars, h.cString hz, by rw [h.len]; exact h.lt, h.blen⟩

/-- Texts never contain the terminator. -/
theorem apply_noZero {l : List α} (h : ∀ c ∈ l, c ≠ z) (o : Op α) (hv : valid z l o) : ∀ c ∈ apply l o, c ≠ z := by
  intro c hc
  cases o with
  | append ys r => simp only [apply, List.mem_append] at hc; rcases hc with hc | hc; exact h c hc; exact hv c hc
  | appendNull => exact h c hc
  | assign ys r => exact hv c hc
  | popBack => exact h c ((List.dropLast_sublist l).subset hc)
  | erase i =>
    simp only [apply, List.mem_append] at hc
    rcases hc with hc | hc
    · exact h c (List.mem_of_mem_take hc)
    · exact h c (List.mem_of_mem_drop hc)
  | eraseRange i j =>
    simp only [apply, List.mem_append] at hc
    rcases hc with hc | hc
    · exact h c (List.mem_of_mem_take hc)
    · exact h c (List.mem_of_mem_drop hc)
  | insert i d =>
    simp only [apply, List.mem_append, List.mem_cons] at hc
    rcases hc with hc | rfl | hc
    · exact h c (List.mem_of_mem_take hc)
    · exact hv.2
    · exact h c (List.mem_of_mem_drop hc)
  | clean => simp [apply] at hc
  | copySelf => exact h c hc

theorem step_full {s : Str α} {l : List α} (h : Full z s l) (o : Op α) (hv : valid z l o) (f : Nat) :
    ∃ s', step z (f + 3) s o = .ok s' ∧ Full z s' (apply l o) := by
  cases o with
  | append ys r =>
    obtain ⟨s', a, b, _⟩ := pushBackRaw_ok (Or.inl h) (Or.inl ⟨hv, r, rfl⟩) f
    exact ⟨s', a, b⟩
  | appendNull =>
    obtain ⟨s', a, b, _⟩ := pushBackRaw_ok (z := z) (p := none) (Or.inl h) (Or.inr ⟨rfl, rfl⟩) f
    exact ⟨s', a, by simpa [apply] using b⟩
  | assign ys r =>
    obtain ⟨s', a, b, _⟩ := assignRaw_ok (Or.inl h) ⟨hv, r, rfl⟩ (f + 1)
    exact ⟨s', a, b⟩
  | popBack => obtain ⟨s', a, b, _⟩ := popBack_full h; exact ⟨s', a, b⟩
  | erase i => obtain ⟨s', a, b, _⟩ := erase_ok h hv; exact ⟨s', a, b⟩
  | eraseRange i j => obtain ⟨s', a, b, _⟩ := eraseRange_ok h hv.1 hv.2; exact ⟨s', a, b⟩
  | insert i c => exact insert_ok h hv.1 c (f + 1)
  | clean => obtain ⟨s', a, b, _⟩ := clean_full h; exact ⟨s', a, b⟩
  | copySelf => obtain ⟨s', a, b, _⟩ := copy_ok (Or.inl h); exact ⟨s', a, b⟩

theorem run_full {s : Str α} {l : List α} (h : Full z s l) (hz : ∀ c ∈ l, c ≠ z) (os : List (Op α)) (hv : ValidHist z l os)
    (f : Nat) : ∃ s', runOps (step z (f + 3)) s os = .ok s' ∧ Full z s' (run l os) ∧ ∀ c ∈ run l os, c ≠ z := by
  induction os generalizing s l with
  | nil => exact ⟨s, rfl, h, hz⟩
  | cons o os ih =>
    obtain ⟨s1, a, b⟩ := step_full h o hv.1 f
    obtain ⟨s', c, d⟩ := ih b (apply_noZero hz o hv.1) hv.2
    exact ⟨s', by rw [runOps_cons_ok a]; exact c, d⟩

end Str

/-! ## C16 -/

/-- **C16.** A string built from a C string (or a null pointer), followed by any history of appending, assigning,
popping, erasing (one character or a range), inserting characters, cleaning and copying: every call returns, no access
leaves the allocation, and the string shows exactly the resulting text. Three nested calls always suffice. -/
theorem C16_history (p : CPtr α) (l : List α) (hp : Src z p l) (hz : ∀ c ∈ l, c ≠ z) (os : List (Op α)) (hv : ValidHist z l os)
    (f : Nat) : ∃ s s', ofRaw z p = .ok s ∧ runOps (step z (f + 3)) s os = .ok s' ∧ Shows z s' (run l os) := by
  obtain ⟨s, a, b, _⟩ := ofRaw_ok hp
  obtain ⟨s', c, d, e⟩ := run_full b hz os hv f
  exact ⟨s, s', a, c, d.shows e⟩

example : Src (0 : Nat) (some [3, 4, 0, 9]) [3, 4] ∧ (∀ c ∈ [3, 4], c ≠ 0) ∧
    ValidHist 0 [3, 4] [.append [5, 6, 7] [1], .erase 0, .insert 1 8, .popBack, .assign [2] [], .append [3] []] :=
  ⟨Or.inl ⟨by decide, [9], rfl⟩, by decide, by decide⟩

/-- **C16, starting without storage.** The same for a default-constructed (or moved-from) string, as long as `insert` is
not used; whenever storage exists the terminator is inside it. -/
theorem C16_history_default (os : List (Op α)) (hv : ValidHist z [] os) (hi : ∀ i c, Op.insert i c ∉ os) (f : Nat) :
    ∃ s', runOps (step z (f + 3)) (Str.empty : Str α) os = .ok s' ∧
      (Shows z s' (run [] os) ∨ (s' = Str.empty ∧ run [] os = [])) := by
  induction os with
  | nil => exact ⟨Str.empty, rfl, Or.inr ⟨rfl, rfl⟩⟩
  | cons o os ih =>
    have cont : ∀ s1, step z (f + 3) Str.empty o = .ok s1 → Full z s1 (apply [] o) → ∃ s',
        runOps (step z (f + 3)) (Str.empty : Str α) (o :: os) = .ok s' ∧
        (Shows z s' (run [] (o :: os)) ∨ (s' = Str.empty ∧ run [] (o :: os) = [])) := by
      intro s1 a b
      obtain ⟨s', c, d, e⟩ := run_full b (apply_noZero (by simp) o hv.1) os hv.2 f
      exact ⟨s', by rw [runOps_cons_ok a]; exact c, Or.inl (d.shows e)⟩
    have same : step z (f + 3) (Str.empty : Str α) o = .ok Str.empty → apply [] o = [] → ∃ s',
        runOps (step z (f + 3)) (Str.empty : Str α) (o :: os) = .ok s' ∧
        (Shows z s' (run [] (o :: os)) ∨ (s' = Str.empty ∧ run [] (o :: os) = [])) := by
      intro a b
      have hv2 : ValidHist z [] os := by have := hv.2; rwa [b] at this
      obtain ⟨s', c, d⟩ := ih hv2 (fun i c h => hi i c (by simp [h]))
      exact ⟨s', by rw [runOps_cons_ok a]; exact c, by simpa only [run, b] using d⟩
    have hr : Rep z (Str.empty : Str α) [] := Or.inr ⟨rfl, rfl⟩
    cases o with
    | append ys r =>
      obtain ⟨s1, a, b, _⟩ := pushBackRaw_ok hr (Or.inl ⟨hv.1, r, rfl⟩) f
      exact cont s1 a b
    | appendNull =>
      obtain ⟨s1, a, b, _⟩ := pushBackRaw_ok (z := z) (p := none) hr (Or.inr ⟨rfl, rfl⟩) f
      exact cont s1 a b
    | assign ys r =>
      obtain ⟨s1, a, b, _⟩ := assignRaw_ok hr ⟨hv.1, r, rfl⟩ (f + 1)
      exact cont s1 a b
    | popBack => exact same rfl rfl
    | erase i =>
      have : i = 0 := by simpa [valid] using hv.1
      subst this; exact same rfl rfl
    | eraseRange i j =>
      have h2 : i ≤ j ∧ j ≤ 0 := hv.1
      obtain ⟨rfl, rfl⟩ : i = 0 ∧ j = 0 := by omega
      exact same rfl rfl
    | insert i c => exact absurd (by simp) (hi i c)
    | clean => exact same rfl rfl
    | copySelf =>
      obtain ⟨s1, a, b, _⟩ := copy_ok hr
      exact cont s1 a b

example : ValidHist (0 : Nat) [] [.popBack, .append [5, 6, 7] [1], .erase 3, .assign [2] [], .append [3] []] ∧
    ∀ i c, Op.insert i c ∉ ([.popBack, .append [5, 6, 7] [1], .erase 3, .assign [2] [], .append [3] []] : List (Op Nat)) :=
  ⟨by decide, by simp⟩

/-- Outside C16: assigning a null pointer, which the constructor and `pushBack` accept, reads through it. -/
theorem C16_assign_null_ub (s : Str α) (l : List α) (h : Rep z s l) (f : Nat) : assignRaw z (f + 2) s none = .ub := by
  have full : ∀ (s : Str α) (l : List α) (g : Nat), Full z s l → assignRaw z (g + 1) s none = .ub := by
    intro s l g h
    obtain ⟨s1, a, b, d⟩ := clean_full h
    have := h.lt
    rw [assignRaw]
    simp only [a, Res.ok_bind, rawLen]
    rw [if_pos (by omega)]
    rfl
  rcases h with h | ⟨rfl, rfl⟩
  · exact full s l (f + 1) h
  · obtain ⟨s2, a2, b2, d2⟩ := resize_ok (z := z) (s := (Str.empty : Str α)) (xs := []) (Or.inr ⟨rfl, rfl⟩) (n := 1) (by omega)
    rw [assignRaw]
    simp only [clean, Str.empty, Res.ok_bind, rawLen, ne_eq, not_true, if_false, reserve]
    simp only [Str.empty] at a2
    rw [if_neg (by omega)]
    simp only [Nat.zero_add, Nat.sub_zero, a2, Res.ok_bind]
    exact full s2 [] f b2

example : Rep (0 : Nat) (⟨[some 5, some 0], 2, 1⟩) [5] :=
  Or.inl ⟨rfl, rfl, by decide, by intro i hi; have : i = 0 ∨ i = 1 := by simp at hi; omega
                                  rcases this with rfl | rfl <;> rfl⟩

/-! ## C17 -/

/-- **C17, violated.** Appending one character to any string that was just constructed from a C string (its allocation is
exactly full) writes the terminator one character past the allocation; on a default-constructed string it writes through
an empty allocation. -/
theorem C17_violated (p : CPtr α) (l : List α) (hp : Src z p l) (c : α) (f : Nat) :
    (∃ s, ofRaw z p = .ok s ∧ pushBack z (f + 1) s c = .ub) ∧ pushBack z (f + 1) (Str.empty : Str α) c = .ub := by
  obtain ⟨s, a, b, d⟩ := ofRaw_ok hp
  exact ⟨⟨s, a, pushBack_full_ub b c d.symm f⟩, pushBack_empty_ub c f⟩

example : Src (0 : Nat) (some [3, 4, 0, 9]) [3, 4] := Or.inl ⟨by decide, [9], rfl⟩

/-- **C17, exact domain of `pushBack(const &)`.** On every string that can be built, the call appends exactly `c` when at
least two characters are free (terminator included) and is undefined in every other case; it never grows the string. -/
theorem C17_pushBack_iff (s : Str α) (l : List α) (h : Rep z s l) (c : α) (f : Nat) :
    (l.length + 1 < s.cap → ∃ s', pushBack z (f + 1) s c = .ok s' ∧ Full z s' (l ++ [c]) ∧ s'.cap = s.cap) ∧
    (¬ l.length + 1 < s.cap → pushBack z (f + 1) s c = .ub) := by
  rcases h with h | ⟨rfl, rfl⟩
  · refine ⟨fun hl => pushBack_fits h c hl f, fun hl => pushBack_full_ub h c ?_ f⟩
    have := h.lt; omega
  · exact ⟨fun hl => by simp [Str.empty] at hl, fun _ => pushBack_empty_ub c f⟩

/-- **C17_partial.** After a C string was appended there is room: the next character is appended correctly.  Missing: all
strings without spare room (see `C17_violated`). -/
theorem C17_after_append_partial (s : Str α) (l ys : List α) (p : CPtr α) (h : Rep z s l) (hp : Src z p ys) (hl : ∀ c ∈ l ++ ys, c ≠ z)
    (c : α) (hc : c ≠ z) (f : Nat) :
    ∃ s1 s2, pushBackRaw z (f + 3) s p = .ok s1 ∧ pushBack z (f + 1) s1 c = .ok s2 ∧ Shows z s2 (l ++ ys ++ [c]) := by
  obtain ⟨s1, a, b, d⟩ := pushBackRaw_ok h hp f
  obtain ⟨s2, a2, b2, _⟩ := pushBack_fits b c (by simp; omega) f
  refine ⟨s1, s2, a, a2, b2.shows ?_⟩
  intro x hx
  simp only [List.mem_append, List.mem_singleton] at hx hl
  rcases hx with hx | rfl
  · exact hl x hx
  · exact hc

/-- **C17_partial, `pushBack(&&)`.** The overload for temporaries checks one character more: from a capacity of two on it
always returns with exactly `c` appended (growing if needed); below that it is undefined. -/
theorem C17_pushBackMove_partial (s : Str α) (l : List α) (h : Rep z s l) (c : α) (f : Nat) :
    (2 ≤ s.cap → ∃ s', pushBackMove z (f + 1) s c = .ok s' ∧ Full z s' (l ++ [c])) ∧
    (s.cap < 2 → pushBackMove z (f + 1) s c = .ub) := by
  refine ⟨fun hc => ?_, fun hc => pushBackMove_small_ub h c hc f⟩
  rcases h with h | ⟨rfl, rfl⟩
  · exact pushBackMove_ok h c hc f
  · simp [Str.empty] at hc

/-- Hypotheses of the two theorems are met on both sides of the condition. -/
example : ∃ s : Str Nat, ofRaw 0 (some [5, 6, 0]) = .ok s ∧ Rep 0 s [5, 6] ∧ 2 ≤ s.cap ∧ ¬ (2 + 1 < s.cap) := by
  obtain ⟨s, a, b, d⟩ := ofRaw_ok (z := 0) (p := some [5, 6, 0]) (xs := [5, 6]) (Or.inl ⟨by decide, [], rfl⟩)
  exact ⟨s, a, Or.inl b, by rw [d]; decide, by rw [d]; decide⟩

/-- **C16, capacity.** Assigning a C string keeps the storage if text and terminator fit, and otherwise adds room for both to what there was. -/
theorem C16_assign_capacity (s : Str α) (l ys : List α) (p : CPtr α) (h : Rep z s l) (hp : IsC z p ys) (f : Nat) :
    ∃ s', assignRaw z (f + 2) s p = .ok s' ∧ Shows z s' ys ∧
      s'.cap = if ys.length + 1 ≤ s.cap then s.cap else s.cap + (ys.length + 1) := by
  obtain ⟨s', a, b, c⟩ := assignRaw_ok h hp f
  exact ⟨s', a, b.shows hp.1, c⟩

/-! ## C18 -/

/-- **C18, violated.** Assigning a non-empty string, whenever the call is defined at all, leaves `length() == 0`. -/
theorem C18_violated (s t : Str α) (l k : List α) (hs : Full z s l) (ht : Full z t k) (hl : k.length < s.cap) (f : Nat) :
    ∃ s', assign z (f + 1) s t = .ok s' ∧ s'.len = 0 ∧ chars s' = .ok [] := by
  obtain ⟨s', a, b, _⟩ := assign_room hs (Or.inl ht) hl f
  exact ⟨s', a, b, by unfold Str.chars; rw [b]; rfl⟩

/-- **C18, violated.** Assigning a string one character longer than the target's text can hold writes the terminator past
the allocation: the capacity check forgets it. -/
theorem C18_terminator_ub (s t : Str α) (l k : List α) (hs : Full z s l) (ht : Rep z t k) (hl : k.length = s.cap) (f : Nat) :
    assign z (f + 1) s t = .ub := by
  have htl : t.len = k.length := by rcases ht with h | ⟨rfl, rfl⟩; exact h.len; rfl
  obtain ⟨s1, a, b, d⟩ := clean_full hs
  have hb := b.blen
  have hc := ht.chars
  unfold Str.chars at hc
  obtain ⟨b2, h1, h2, h3⟩ := Raw.wrList_ok (b := s1.buf) (i := 0) (xs := k) (by omega)
  rw [assign, if_pos (by omega)]
  simp only [a, Res.ok_bind, hc, h1]
  rw [Raw.wr_ub z (by omega)]; rfl

/-- **C18, violated.** Assigning anything to a string without storage (a default constructed or moved-from one) writes the terminator past the
allocation, or through the null pointer if the source is empty. -/
theorem C18_default_target_ub (t : Str α) (k : List α) (ht : Rep z t k) (f : Nat) : assign z (f + 2) Str.empty t = .ub := by
  have htl : t.len = k.length := by rcases ht with h | ⟨rfl, rfl⟩; exact h.len; rfl
  by_cases h0 : k.length = 0
  · have hc := ht.chars
    unfold Str.chars at hc
    have hk : k = [] := List.eq_nil_of_length_eq_zero h0
    subst hk
    have hle : t.len ≤ (Str.empty : Str α).cap := by rw [htl]; simp [Str.empty]
    rw [assign, if_pos hle]
    have hcl : clean z (Str.empty : Str α) = .ok Str.empty := rfl
    simp only [hcl, Res.ok_bind, hc, Raw.wrList]
    rw [Raw.wr_ub z (by simp [Str.empty])]; rfl
  · obtain ⟨s1, a, b, d⟩ := resize_ok (z := z) (s := (Str.empty : Str α)) (xs := []) (Or.inr ⟨rfl, rfl⟩) (n := k.length) (by omega)
    rw [assign, if_neg (by rw [htl]; show ¬ k.length ≤ 0; omega)]
    have e : reserve z (Str.empty : Str α) (t.len - (Str.empty : Str α).len) = .ok s1 := by
      simp only [reserve, htl]
      simpa [Str.empty] using a
    rw [e, Res.ok_bind]
    exact C18_terminator_ub s1 t [] k b ht (by rw [d]; show k.length = max 0 k.length; omega) f

example : Rep 0 (Str.empty : Str Nat) [] := Or.inr ⟨rfl, rfl⟩

/-- **C18, exactly (source longer than the capacity).** The storage grows by the difference of the lengths, which is enough, the bytes are
copied, and `length()` is 0. -/
theorem C18_grow_violated (s t : Str α) (l k : List α) (hs : Full z s l) (ht : Rep z t k) (hl : s.cap < k.length) (f : Nat) :
    ∃ s', assign z (f + 2) s t = .ok s' ∧ s'.len = 0 ∧ s'.cap = s.cap + (k.length - l.length) ∧
      Full z ⟨s'.buf, s'.cap, k.length⟩ k := by
  have htl : t.len = k.length := by rcases ht with h | ⟨rfl, rfl⟩; exact h.len; rfl
  have hlt := hs.lt; have hle := hs.len
  obtain ⟨s1, a, b, d⟩ := resize_full hs (s.cap + (k.length - l.length))
  have d' : s1.cap = s.cap + (k.length - l.length) := by rw [d]; omega
  obtain ⟨s', h1, h2, h3, h4⟩ := assign_room b ht (by omega) f
  refine ⟨s', ?_, h2, by rw [h3, d'], h4⟩
  rw [assign, if_neg (by omega)]
  simp only [reserve, htl, hle]
  rw [a]
  exact h1

example : ∃ s t : Str Nat, Full 0 s [] ∧ Rep 0 t [5, 6] ∧ s.cap < 2 := by
  obtain ⟨t, _, b', _⟩ := ofRaw_ok (z := 0) (p := some [5, 6, 0]) (xs := [5, 6]) (Or.inl ⟨by decide, [], rfl⟩)
  exact ⟨⟨[some 0], 1, 0⟩, t, ⟨rfl, rfl, by decide, by intro i hi; have : i = 0 := by simpa using hi
                                                       subst this; rfl⟩, Or.inl b', by decide⟩

/-- **C18, violated.** Self assignment of a string with storage empties it. -/
theorem C18_self_violated (s : Str α) (l : List α) (hs : Full z s l) :
    ∃ s', assignSelf z s = .ok s' ∧ Full z s' [] := by
  obtain ⟨s1, a, b, d⟩ := clean_full hs
  have hb := b.blen; have hlt := b.lt
  refine ⟨⟨s1.buf.set 0 (some z), s1.cap, s1.len⟩, ?_, ⟨by simp [hb], b.len, hlt, ?_⟩⟩
  · have := hs.lt; have := hs.len
    rw [assignSelf, if_pos (by omega)]
    simp only [a, Res.ok_bind, b.len, List.length_nil, Raw.rdRange, Raw.wrList]
    rw [Raw.wr_ok z (by simp at hlt; omega)]; rfl
  · intro i hi
    have : i = 0 := by simpa using hi
    subst this
    simp only [List.length_nil] at hlt
    simp [show 0 < s1.buf.length by omega]

/-- **C18_partial.** When the source fits, the bytes are right: `data()` of the target is the source's text as a C string,
terminated inside the allocation.  Missing: `length()` (it becomes 0), sources that do not fit. -/
theorem C18_cstring_partial (s t : Str α) (l k : List α) (hs : Full z s l) (ht : Rep z t k) (hk : ∀ c ∈ k, c ≠ z)
    (hl : k.length < s.cap) (f : Nat) : ∃ s', assign z (f + 1) s t = .ok s' ∧ cString z s' = .ok k := by
  obtain ⟨s', a, _, _, b⟩ := assign_room hs ht hl f
  exact ⟨s', a, b.cString hk⟩

/-- **C18_partial.** Copy construction is correct for every string; the source (an immutable argument) is unchanged. -/
theorem C18_copy_partial (t : Str α) (k : List α) (ht : Rep z t k) (hk : ∀ c ∈ k, c ≠ z) :
    ∃ s', copy z t = .ok s' ∧ Shows z s' k := by
  obtain ⟨s', a, b, _⟩ := copy_ok ht
  exact ⟨s', a, b.shows hk⟩

/-- **C18_partial.** Move construction and move assignment hand over the text and leave the source empty. -/
theorem C18_move_partial (s t : Str α) (l k : List α) (hs : Rep z s l) (ht : Rep z t k) :
    (Rep z (moveCtor t).1 k ∧ Rep z (moveCtor t).2 []) ∧
    ∃ s' t', moveAssign z s t = .ok (s', t') ∧ Rep z s' k ∧ Rep z t' [] := by
  obtain ⟨s1, a, _⟩ := clean_ok hs
  exact ⟨⟨ht, Or.inr ⟨rfl, rfl⟩⟩, t, Str.empty, by simp [moveAssign, a], ht, Or.inr ⟨rfl, rfl⟩⟩

/-- Two strings meeting the hypotheses of the C18 theorems: `"ab"` with spare room is not available from the constructor
alone, so the target is built by appending. -/
example : ∃ s t : Str Nat, pushBackRaw 0 3 Str.empty (some [7, 0]) = .ok s ∧ ofRaw 0 (some [5, 6, 0]) = .ok t ∧
    Full 0 s [7] ∧ Full 0 t [5, 6] ∧ 2 < s.cap := by
  obtain ⟨s, a, b, d⟩ := pushBackRaw_ok (z := 0) (p := some [7, 0]) (s := (Str.empty : Str Nat)) (xs := []) (ys := [7])
    (Or.inr ⟨rfl, rfl⟩) (Or.inl ⟨by decide, [], rfl⟩) 0
  obtain ⟨t, a', b', _⟩ := ofRaw_ok (z := 0) (p := some [5, 6, 0]) (xs := [5, 6]) (Or.inl ⟨by decide, [], rfl⟩)
  exact ⟨s, t, a, a', b, b', by simp at d; omega⟩

/-! ## C19 -/

/-- **C19, violated.** Inserting a non-empty range that does not fit never returns: the string is resized to the length of
the range only, so the same test fails again, for any recursion depth. -/
theorem C19_insertRange_diverges (s : Str α) (l ys : List α) (h : Rep z s l) (p : Nat) (hp : p ≤ l.length) (hy : ys ≠ [])
    (hl : s.cap ≤ ys.length + l.length) (f : Nat) : insertRange z f s p ys = .loop :=
  insertRange_stuck h hp hy hl f

/-- In particular inserting any non-empty C string at any position of a freshly constructed string. -/
theorem C19_fresh_diverges (p q : CPtr α) (l ys : List α) (hp : Src z p l) (hq : Src z q ys) (hy : ys ≠ []) (i : Nat)
    (hi : i ≤ l.length) (f : Nat) : ∃ s, ofRaw z p = .ok s ∧ insertRaw z f s i q = .loop := by
  obtain ⟨s, a, b, d⟩ := ofRaw_ok hp
  have : 0 < ys.length := List.length_pos_iff.mpr hy
  exact ⟨s, a, by simp [insertRaw, hq.rawLen, hq.rawTake, insertRange_stuck (Or.inl b) hi hy (by omega)]⟩

example : Src (0 : Nat) (some [3, 4, 0, 9]) [3, 4] ∧ Src (0 : Nat) (some [3, 0]) [3] :=
  ⟨Or.inl ⟨by decide, [9], rfl⟩, Or.inl ⟨by decide, [], rfl⟩⟩

/-- **C19, violated.** Inserting a character into a string without storage. -/
theorem C19_insert_empty_ub (c : α) (f : Nat) : insert z (f + 1) (Str.empty : Str α) 0 c = .ub := by
  simp [Str.insert, Str.empty, reserve, nextCap, resize, Raw.wr]

/-- **C19_partial, range.** `insert(position, range)` gives the sequence result exactly when the range fits with the
terminator; otherwise it diverges. Missing: ranges that do not fit. -/
theorem C19_insertRange_partial (s : Str α) (l ys : List α) (h : Full z s l) (p : Nat) (hp : p ≤ l.length) (f : Nat) :
    (ys.length + l.length < s.cap ∨ ys = [] → ∃ s', insertRange z (f + 1) s p ys = .ok s' ∧
      Full z s' (l.take p ++ (ys ++ l.drop p))) ∧
    (¬ (ys.length + l.length < s.cap ∨ ys = []) → insertRange z (f + 1) s p ys = .loop) := by
  refine ⟨fun hl => ?_, fun hl => ?_⟩
  · rcases hl with hl | rfl
    · exact insertRange_fits h hp hl f
    · exact insertRange_fits h hp (by have := h.lt; simpa) f
  · rw [not_or] at hl
    exact insertRange_stuck (Or.inl h) hp hl.2 (by omega) _

/-- **C19_partial.** On strings with storage, inserting a character and erasing a character or a range always return with
the sequence result, whatever the capacity. Missing: range insertion, strings without storage. -/
theorem C19_char_erase_partial (s : Str α) (l : List α) (h : Full z s l) (f : Nat) :
    (∀ i c, i ≤ l.length → ∃ s', insert z (f + 2) s i c = .ok s' ∧ Full z s' (l.take i ++ c :: l.drop i)) ∧
    (∀ i, i ≤ l.length → ∃ s', erase z s i = .ok s' ∧ Full z s' (l.take i ++ l.drop (i + 1))) ∧
    (∀ i j, i ≤ j → j ≤ l.length → ∃ s', eraseRange z s i j = .ok s' ∧ Full z s' (l.take i ++ l.drop j)) := by
  refine ⟨fun i c hi => insert_ok h hi c f, fun i hi => ?_, fun i j h1 h2 => ?_⟩
  · obtain ⟨s', a, b, _⟩ := erase_ok h hi; exact ⟨s', a, b⟩
  · obtain ⟨s', a, b, _⟩ := eraseRange_ok h h1 h2; exact ⟨s', a, b⟩

/-! ## C20 -/

/-- **C20, violated.** `s1 + s2` and `"..." + s2` drop the second operand entirely; `s1 += s2` changes nothing. -/
theorem C20_violated (s t : Str α) (l k m : List α) (p : CPtr α) (hs : Rep z s l) (_ht : Rep z t k) (hk : k ≠ []) (hp : Src z p m) :
    (∃ r, concat z s t = .ok r ∧ chars r = .ok l ∧ l ≠ l ++ k) ∧
    (∃ r, rawConcat z p t = .ok r ∧ chars r = .ok m ∧ m ≠ m ++ k) ∧
    (chars (appendStr s t) = .ok l ∧ l ≠ l ++ k) := by
  have hne : ∀ l : List α, l ≠ l ++ k := by
    intro l h
    have h1 := congrArg List.length h
    have h2 := List.length_pos_iff.mpr hk
    rw [List.length_append] at h1; omega
  obtain ⟨r, a, b, _⟩ := copy_ok hs
  obtain ⟨r2, a2, b2, _⟩ := ofRaw_ok hp
  refine ⟨⟨r, by simp [concat, a, appendStr], b.chars, hne l⟩, ⟨r2, by simp [rawConcat, a2, appendStr], b2.chars, hne m⟩,
    by simpa [appendStr] using hs.chars, hne l⟩

/-- **C20, violated.** Adding a number or a range of characters, and removing a range, leave every string as it is, whatever the argument. -/
theorem C20_unimplemented_violated (s : Str α) (l k : List α) (b e : Nat) (n : Int) (hs : Rep z s l) (hk : k ≠ []) (hb : b < e)
    (he : e ≤ l.length) :
    chars (appendInt s n) = .ok l ∧ (chars (appendRange s k) = .ok l ∧ l ≠ l ++ k) ∧
    (chars (subRange s b e) = .ok l ∧ l ≠ l.take b ++ l.drop e) := by
  refine ⟨hs.chars, ⟨hs.chars, ?_⟩, hs.chars, ?_⟩
  · intro h
    have h1 := congrArg List.length h
    have h2 := List.length_pos_iff.mpr hk
    rw [List.length_append] at h1; omega
  · intro h
    have h1 := congrArg List.length h
    simp only [List.length_append, List.length_take, List.length_drop] at h1
    omega

/-- **C20_partial.** Removing one character through an iterator, forward or reverse, removes that character. -/
theorem C20_subAt_partial (s : Str α) (l : List α) (h : Full z s l) (hz : ∀ c ∈ l, c ≠ z) {i : Nat} (hi : i < l.length) :
    ∃ s', subAt z s i = .ok s' ∧ Shows z s' (l.eraseIdx i) := by
  obtain ⟨s', a, b, _⟩ := erase_ok h (Nat.le_of_lt hi)
  rw [← List.eraseIdx_eq_take_drop_succ] at b
  exact ⟨s', a, b.shows (fun c hc => hz c (List.mem_of_mem_eraseIdx hc))⟩

/-- **C20_partial.** `s1 + "..."` is the concatenation, for all strings and C strings.  Missing: string right operands. -/
theorem C20_concatRaw_partial (s : Str α) (l ys : List α) (p : CPtr α) (hs : Rep z s l) (hp : Src z p ys) (hz : ∀ c ∈ l ++ ys, c ≠ z)
    (f : Nat) : ∃ r, concatRaw z (f + 3) s p = .ok r ∧ Shows z r (l ++ ys) := by
  obtain ⟨r, a, b, _⟩ := copy_ok hs
  obtain ⟨r2, a2, b2, _⟩ := pushBackRaw_ok (Or.inl b) hp f
  exact ⟨r2, by simp [concatRaw, a, a2], b2.shows hz⟩

example : ∃ s : Str Nat, ofRaw 0 (some [5, 6, 0]) = .ok s ∧ Rep 0 s [5, 6] ∧ Src (0 : Nat) (some [3, 0]) [3] ∧
    (∀ c ∈ [5, 6] ++ [3], c ≠ 0) := by
  obtain ⟨s, a, b, d⟩ := ofRaw_ok (z := 0) (p := some [5, 6, 0]) (xs := [5, 6]) (Or.inl ⟨by decide, [], rfl⟩)
  exact ⟨s, a, Or.inl b, Or.inl ⟨by decide, [], rfl⟩, by decide⟩

/-! The theorems at concrete strings: `[5]` in room for four, `[5, 6]` in room for three. -/

namespace Str

theorem exRoomy : Full (0 : Nat) ⟨[some 5, some 0, none, none], 4, 1⟩ [5] :=
  ⟨rfl, rfl, by decide, fun i hi => match i, hi with
    | 0, _ => rfl
    | 1, _ => rfl⟩

theorem exTight : Full (0 : Nat) ⟨[some 5, some 6, some 0], 3, 2⟩ [5, 6] :=
  ⟨rfl, rfl, by decide, fun i hi => match i, hi with
    | 0, _ => rfl
    | 1, _ => rfl
    | 2, _ => rfl⟩

theorem exPair : Full (0 : Nat) ⟨[some 5, some 0], 2, 1⟩ [5] :=
  ⟨rfl, rfl, by decide, fun i hi => match i, hi with
    | 0, _ => rfl
    | 1, _ => rfl⟩

theorem exSrc : Src (0 : Nat) (some [3, 4, 0, 9]) [3, 4] := Or.inl ⟨by decide, [9], rfl⟩

end Str

example := C17_pushBack_iff _ _ (Or.inl exRoomy) 7 2
example := C17_after_append_partial _ _ _ _ (Or.inl exTight) exSrc (by decide) 7 (by decide) 2
example := C16_assign_capacity (z := 0) _ _ [3, 4] (some [3, 4, 0, 9]) (Or.inl exTight) ⟨by decide, [9], rfl⟩ 2
example := C18_violated _ _ _ _ exRoomy exTight (by decide) 2
example := C18_terminator_ub _ _ _ _ exPair (Or.inl exTight) (by decide) 2
example := C18_self_violated _ _ exTight
example := C18_cstring_partial _ _ _ _ exRoomy (Or.inl exTight) (by decide) (by decide) 2
example := C18_copy_partial _ _ (Or.inl exTight) (by decide)
example := C19_insertRange_diverges _ _ [7, 8] (Or.inl exTight) 1 (by decide) (by decide) (by decide) 9
example := C19_insertRange_partial _ _ [7, 8] exRoomy 1 (by decide) 2
example := C19_char_erase_partial _ _ exTight 2
example := C20_violated _ _ _ _ _ _ (Or.inl exRoomy) (Or.inl exTight) (by decide) exSrc
example := C20_unimplemented_violated _ _ [7] 0 1 5 (Or.inl exTight) (by decide) (by decide) (by decide)
example := C20_subAt_partial _ _ exTight (by decide) (i := 1) (by decide)

end Flame
