import Verif.String.Props

/-!
# C16, C17 and C19, exactly: what every history of calls on a string does

The specification keeps of a string only what a program can ask for: its text and its `capacity()` (0 for a string without storage).  From these two
alone it says for each call whether it returns, is undefined or never returns, and what text and capacity are left.
-/

namespace Flame.StrExact
variable {α : Type}

/-- The calls of a history.  `ys` is the text of a C string argument (or the characters of a range), `rest` the memory behind its terminator. -/
inductive Call (α : Type) where
  | append (ys rest : List α)
  | appendNull
  | push (c : α)
  | pushTemp (c : α)
  | assign (ys rest : List α)
  | assignNull
  | assignTemp (ys rest : List α)
  | popBack
  | erase (i : Nat)
  | eraseRange (i j : Nat)
  | insert (i : Nat) (c : α)
  | insertRange (i : Nat) (ys : List α)
  | insertText (i : Nat) (ys rest : List α)
  | clean
  | copySelf
  | moveOut
  | resize (n : Nat)
  | reserve (n : Nat)
  deriving Repr

/-- How a call or a history ends: with a capacity and a text, undefined, or never. -/
inductive End (α : Type) where
  | back (cap : Nat) (text : List α)
  | undefined
  | never
  deriving Repr, DecidableEq

/-- What a caller must respect: positions inside the text, C strings end at their first terminator. -/
def valid (z : α) (l : List α) : Call α → Prop
  | .append ys _ | .assign ys _ | .assignTemp ys _ => ∀ c ∈ ys, c ≠ z
  | .erase i => i ≤ l.length
  | .eraseRange i j => i ≤ j ∧ j ≤ l.length
  | .insert i _ => i ≤ l.length
  | .insertRange i _ => i ≤ l.length
  | .insertText i ys _ => i ≤ l.length ∧ ∀ c ∈ ys, c ≠ z
  | _ => True

instance [DecidableEq α] (z : α) (l : List α) (o : Call α) : Decidable (valid z l o) := by
  cases o <;> unfold valid <;> infer_instance

/-- The capacity after appending so that `n` characters are there: two more than these have to be free, otherwise half as much again as before or,
if that is too little, half as much again as needed. -/
def afterAppend (cap n : Nat) : Nat :=
  if n + 2 < cap then cap else if n + 2 < cap * 3 / 2 then cap * 3 / 2 else (n + 2) * 3 / 2

/-- The outcome of a call on a string with capacity `cap` and text `l`. -/
def call (cap : Nat) (l : List α) : Call α → End α
  | .append ys _ => .back (afterAppend cap (l.length + ys.length)) (l ++ ys)
  | .appendNull => .back (afterAppend cap l.length) l
  | .push c => if l.length + 1 < cap then .back cap (l ++ [c]) else .undefined
  | .pushTemp c => if cap < 2 then .undefined else .back (if l.length + 1 < cap then cap else cap * 3 / 2) (l ++ [c])
  | .assign ys _ => .back (if ys.length < cap then cap else cap + ys.length + 1) ys
  | .assignNull => .undefined
  | .assignTemp ys _ => .back (ys.length + 1) ys
  | .popBack => .back cap l.dropLast
  | .erase i => .back cap (l.take i ++ l.drop (i + 1))
  | .eraseRange i j => .back cap (l.take i ++ l.drop j)
  | .insert i c => if cap = 0 then .undefined else .back (if l.length + 1 < cap then cap else cap + cap * 3 / 2) (l.take i ++ c :: l.drop i)
  | .insertRange i ys | .insertText i ys _ =>
    if ys = [] ∨ l.length + ys.length < cap then .back cap (l.take i ++ (ys ++ l.drop i)) else .never
  | .clean => .back cap []
  | .copySelf => .back (l.length + 1) l
  | .moveOut => .back 0 []
  | .resize n => if cap = 0 ∧ n = 0 then .undefined else .back (if n < cap then cap else n) l
  | .reserve n => if cap = 0 ∧ n = 0 then .undefined else .back (cap + n) l

/-- The outcome of a history. -/
def hist (cap : Nat) (l : List α) : List (Call α) → End α
  | [] => .back cap l
  | o :: os => match call cap l o with
    | .back cap' l' => hist cap' l' os
    | e => e

/-- The caller respects the rules as long as the history goes on. -/
def ValidHist (z : α) (cap : Nat) (l : List α) : List (Call α) → Prop
  | [] => True
  | o :: os => valid z l o ∧ match call cap l o with
    | .back cap' l' => ValidHist z cap' l' os
    | _ => True

instance decValidHist [DecidableEq α] (z : α) : (cap : Nat) → (l : List α) → (os : List (Call α)) → Decidable (ValidHist z cap l os)
  | _, _, [] => isTrue trivial
  | cap, l, o :: os => by
    unfold ValidHist
    have : Decidable (match call cap l o with | .back cap' l' => ValidHist z cap' l' os | _ => True) := by
      cases call cap l o with
      | back cap' l' => exact decValidHist z cap' l' os
      | undefined => exact isTrue trivial
      | never => exact isTrue trivial
    infer_instance

end Flame.StrExact

namespace Flame
open Str StrExact
variable {α : Type} [DecidableEq α] {z : α}

namespace StrExact

/-- One call on a string object, as the code makes it (String.hpp 223-237 makes the temporary that `assignTemp` moves from). -/
def step (z : α) (f : Nat) (s : Str α) : Call α → Res (Str α)
  | .append ys rest => pushBackRaw z f s (some (ys ++ z :: rest))
  | .appendNull => pushBackRaw z f s none
  | .push c => pushBack z f s c
  | .pushTemp c => pushBackMove z f s c
  | .assign ys rest => assignRaw z f s (some (ys ++ z :: rest))
  | .assignNull => assignRaw z f s none
  | .assignTemp ys rest => do
    let t ← ofRaw z (some (ys ++ z :: rest))
    let r ← moveAssign z s t
    .ok r.1
  | .popBack => popBack z s
  | .erase i => erase z s i
  | .eraseRange i j => eraseRange z s i j
  | .insert i c => insert z f s i c
  | .insertRange i ys => insertRange z f s i ys
  | .insertText i ys rest => insertRaw z f s i (some (ys ++ z :: rest))
  | .clean => clean z s
  | .copySelf => copy z s
  | .moveOut => .ok (moveCtor s).2
  | .resize n => resize z s n
  | .reserve n => reserve z s n

/-- The string the code leaves represents what the specification says. -/
def Leaves (z : α) (r : Res (Str α)) : End α → Prop
  | .back c l => ∃ s', r = .ok s' ∧ Rep z s' l ∧ s'.cap = c
  | .undefined => r = .ub
  | .never => r = .loop

theorem rep_len {s : Str α} {l : List α} (h : Rep z s l) : s.len = l.length := by
  rcases h with h | ⟨rfl, rfl⟩
  · exact h.len
  · rfl

theorem rep_zero {s : Str α} {l : List α} (h : Rep z s l) (h0 : s.cap = 0) : s = empty ∧ l = [] := by
  rcases h with h | h
  · exact absurd h0 h.cap_ne
  · exact h

theorem append_cap {s : Str α} {xs ys : List α} {p : CPtr α} (h : Rep z s xs) (hp : Src z p ys) (f : Nat) :
    ∃ s', pushBackRaw z (f + 3) s p = .ok s' ∧ Full z s' (xs ++ ys) ∧ s'.cap = afterAppend s.cap (xs.length + ys.length) := by
  have hlen := rep_len h
  have room : ∀ (s : Str α) (g : Nat), Full z s xs → xs.length + ys.length + 2 < s.cap →
      ∃ s', pushBackRaw z (g + 1) s p = .ok s' ∧ Full z s' (xs ++ ys) ∧ s'.cap = s.cap := by
    intro s g h hl
    obtain ⟨b, h1, h2⟩ := write_tail (ys := ys) h (by omega)
    refine ⟨⟨b, s.cap, xs.length + ys.length⟩, ?_, h2, rfl⟩
    rw [Res.bind_eq_ok] at h1
    obtain ⟨b1, h3, h4⟩ := h1
    simp only [pushBackRaw, hp.rawLen, Res.ok_bind, h.len, hl, if_true, hp.rawTake, h3, h4]
  unfold afterAppend
  by_cases hl : xs.length + ys.length + 2 < s.cap
  · rw [if_pos hl]
    rcases h with h | ⟨rfl, rfl⟩
    · exact room s (f + 2) h hl
    · simp [empty] at hl
  rw [if_neg hl]
  have hn : s.nextCap = s.cap * 3 / 2 := rfl
  by_cases hl2 : xs.length + ys.length + 2 < s.cap * 3 / 2
  · rw [if_pos hl2]
    obtain ⟨s1, a, b, d⟩ := resize_ok h (n := s.cap * 3 / 2) (by omega)
    obtain ⟨s', h1, h2, h3⟩ := room s1 (f + 1) b (by omega)
    refine ⟨s', ?_, h2, by omega⟩
    rw [pushBackRaw]
    simp only [hp.rawLen, Res.ok_bind, hlen, hl, if_false, hn, hl2, if_true, a]
    exact h1
  · rw [if_neg hl2]
    obtain ⟨s1, a, b, d⟩ := resize_ok h (n := xs.length + ys.length + 2) (by omega)
    have hc : s1.cap = xs.length + ys.length + 2 := by omega
    have hn1 : s1.nextCap = (xs.length + ys.length + 2) * 3 / 2 := by unfold nextCap; rw [hc]
    obtain ⟨s2, a2, b2, d2⟩ := resize_ok (Or.inl b) (n := (xs.length + ys.length + 2) * 3 / 2) (by omega)
    obtain ⟨s', h1, h2, h3⟩ := room s2 f b2 (by omega)
    refine ⟨s', ?_, h2, by omega⟩
    rw [pushBackRaw]
    simp only [hp.rawLen, Res.ok_bind, hlen, hl, if_false, hn, hl2, a]
    rw [pushBackRaw]
    have e1 : ¬ xs.length + ys.length + 2 < s1.cap := by omega
    have e2 : xs.length + ys.length + 2 < (xs.length + ys.length + 2) * 3 / 2 := by omega
    simp only [hp.rawLen, Res.ok_bind, b.len, e1, if_false, hn1, e2, if_true, a2]
    exact h1

theorem insert_room_cap {s s' : Str α} {p : Nat} {c : α} (hl : s.len + 1 < s.cap) (f : Nat) (h : insert z (f + 1) s p c = .ok s') : s'.cap = s.cap := by
  unfold Str.insert at h
  split at h
  · cases h
  split at h
  · have hlt : s.len < s.cap := by omega
    simp only [pushBack, hlt, if_true, Res.bind_eq_ok] at h
    obtain ⟨b, _, b', _, e⟩ := h
    cases e; rfl
  · simp only [Res.bind_eq_ok] at h
    obtain ⟨_, _, _, _, _, _, _, _, e⟩ := h
    cases e; rfl

theorem insert_cap_eq {s : Str α} {xs : List α} (h : Full z s xs) {p : Nat} (hp : p ≤ xs.length) (c : α) (f : Nat) :
    ∃ s', insert z (f + 2) s p c = .ok s' ∧ Full z s' (xs.take p ++ c :: xs.drop p) ∧
      s'.cap = if xs.length + 1 < s.cap then s.cap else s.cap + s.cap * 3 / 2 := by
  have hln := h.len
  have hlt := h.lt
  by_cases hl : xs.length + 1 < s.cap
  · obtain ⟨s', a, b⟩ := insert_fits h hp c hl (f + 1)
    exact ⟨s', a, b, by rw [if_pos hl]; exact insert_room_cap (by omega) _ a⟩
  · obtain ⟨s1, a, b, d⟩ := resize_full h (s.cap + s.nextCap)
    have hn : s.nextCap = s.cap * 3 / 2 := rfl
    obtain ⟨s', a', b'⟩ := insert_fits b hp c (by omega) f
    refine ⟨s', ?_, b', ?_⟩
    · rw [Str.insert, if_neg (by omega), if_neg (by omega)]
      simp only [reserve, a, Res.ok_bind]
      exact a'
    · rw [if_neg hl, insert_room_cap (by have := b.len; omega) _ a']
      omega

theorem insertRange_cap {s s' : Str α} {xs ys : List α} (h : Full z s xs) {p : Nat} (hl : ys.length + xs.length < s.cap) (f : Nat)
    (e : insertRange z (f + 1) s p ys = .ok s') : s'.cap = s.cap := by
  have hln := h.len
  unfold insertRange at e
  split at e
  · cases e
  split at e
  · cases e; rfl
  rw [if_pos (by omega)] at e
  split at e
  · obtain ⟨t, a, _, c⟩ := pushBackList_ok (ys := ys) h (by omega) f
    rw [a] at e; cases e; exact c
  · simp only [Res.bind_eq_ok] at e
    obtain ⟨_, _, _, _, _, _, _, _, e⟩ := e
    cases e; rfl

theorem insertRange_leaves {s : Str α} {l ys : List α} (h : Rep z s l) {i : Nat} (hi : i ≤ l.length) (f : Nat) :
    Leaves z (insertRange z (f + 1) s i ys) (if ys = [] ∨ l.length + ys.length < s.cap then .back s.cap (l.take i ++ (ys ++ l.drop i)) else .never) := by
  have hlen := rep_len h
  by_cases hy : ys = []
  · subst hy
    simp only [true_or, if_true, List.nil_append, List.take_append_drop]
    exact ⟨s, by rw [insertRange, if_neg (by omega)]; rfl, h, rfl⟩
  simp only [hy, false_or]
  by_cases hl : l.length + ys.length < s.cap
  · rw [if_pos hl]
    rcases h with h | ⟨rfl, rfl⟩
    · obtain ⟨s', a, b⟩ := insertRange_fits h hi (show ys.length + l.length < s.cap by omega) f
      exact ⟨s', a, Or.inl b, insertRange_cap h (by omega) f a⟩
    · simp [empty] at hl
  · rw [if_neg hl]
    exact insertRange_stuck h hi hy (by omega) _

theorem resize_leaves {s : Str α} {l : List α} (h : Rep z s l) (n : Nat) :
    Leaves z (resize z s n) (if s.cap = 0 ∧ n = 0 then .undefined else .back (if n < s.cap then s.cap else n) l) := by
  by_cases h0 : s.cap = 0
  · obtain ⟨rfl, rfl⟩ := rep_zero h h0
    by_cases hn : n = 0
    · subst hn
      rw [if_pos ⟨h0, rfl⟩]
      rfl
    · rw [if_neg (by simp [hn])]
      obtain ⟨s', a, b, c⟩ := resize_ok h (n := n) (by omega)
      exact ⟨s', a, Or.inl b, by rw [c, h0]; simp⟩
  · rw [if_neg (by simp [h0])]
    rcases h with h | ⟨rfl, rfl⟩
    · obtain ⟨s', a, b, c⟩ := resize_full h n
      refine ⟨s', a, Or.inl b, ?_⟩
      split <;> omega
    · exact absurd rfl h0

theorem step_leaves {s : Str α} {l : List α} (h : Rep z s l) (o : Call α) (hv : valid z l o) (f : Nat) :
    Leaves z (step z (f + 3) s o) (call s.cap l o) := by
  have hlen := rep_len h
  cases o with
  | append ys rest =>
    obtain ⟨s', a, b, c⟩ := append_cap h (Or.inl ⟨hv, rest, rfl⟩) f
    exact ⟨s', a, Or.inl b, c⟩
  | appendNull =>
    obtain ⟨s', a, b, c⟩ := append_cap (ys := []) h (Or.inr ⟨rfl, rfl⟩) f
    exact ⟨s', a, Or.inl (by simpa using b), by simpa using c⟩
  | push c =>
    obtain ⟨h1, h2⟩ := C17_pushBack_iff s l h c (f + 2)
    simp only [call]
    by_cases hl : l.length + 1 < s.cap
    · rw [if_pos hl]
      obtain ⟨s', a, b, d⟩ := h1 hl
      exact ⟨s', a, Or.inl b, d⟩
    · rw [if_neg hl]
      exact h2 hl
  | pushTemp c =>
    simp only [call]
    by_cases hc : s.cap < 2
    · rw [if_pos hc]
      exact pushBackMove_small_ub h c hc _
    · rw [if_neg hc]
      rcases h with h | ⟨rfl, rfl⟩
      · by_cases hl : l.length + 1 < s.cap
        · rw [if_pos hl]
          obtain ⟨s', a, b⟩ := pushBackMove_ok h c (by omega) (f + 2)
          refine ⟨s', a, Or.inl b, ?_⟩
          have hl' : s.len + 1 < s.cap := by omega
          unfold pushBackMove at a
          simp only [hl', if_true, Res.bind_eq_ok] at a
          obtain ⟨_, _, _, _, e⟩ := a
          cases e; rfl
        · rw [if_neg hl]
          have hlt := h.lt
          obtain ⟨s1, a, b, d⟩ := resize_full h s.nextCap
          have hn : s.nextCap = s.cap * 3 / 2 := rfl
          obtain ⟨s', a2, b2, d2⟩ := pushBack_fits b c (by omega) (f + 2)
          have hl' : ¬ s.len + 1 < s.cap := by omega
          refine ⟨s', ?_, Or.inl b2, by omega⟩
          show pushBackMove z (f + 3) s c = _
          unfold pushBackMove
          rw [if_neg hl', a]
          exact a2
      · simp [empty] at hc
  | assign ys rest =>
    obtain ⟨s', a, b, c⟩ := assignRaw_ok h ⟨hv, rest, rfl⟩ (f + 1)
    refine ⟨s', a, Or.inl b, ?_⟩
    rw [c]
    split <;> split <;> omega
  | assignNull => exact C16_assign_null_ub s l h (f + 1)
  | assignTemp ys rest =>
    obtain ⟨t, a, b, c⟩ := ofRaw_ok (z := z) (p := some (ys ++ z :: rest)) (xs := ys) (Or.inl ⟨hv, rest, rfl⟩)
    obtain ⟨s1, d, _, _⟩ := clean_ok h
    exact ⟨t, by simp [step, a, moveAssign, d], Or.inl b, c⟩
  | popBack =>
    rcases h with h | ⟨rfl, rfl⟩
    · obtain ⟨s', a, b, c⟩ := popBack_full h
      exact ⟨s', a, Or.inl b, c⟩
    · exact ⟨empty, rfl, Or.inr ⟨rfl, rfl⟩, rfl⟩
  | erase i =>
    rcases h with h | ⟨rfl, rfl⟩
    · obtain ⟨s', a, b, c⟩ := erase_ok h hv
      exact ⟨s', a, Or.inl b, c⟩
    · have hi : i = 0 := by simpa [valid] using hv
      subst hi
      exact ⟨empty, rfl, Or.inr ⟨rfl, rfl⟩, rfl⟩
  | eraseRange i j =>
    rcases h with h | ⟨rfl, rfl⟩
    · obtain ⟨s', a, b, c⟩ := eraseRange_ok h hv.1 hv.2
      exact ⟨s', a, Or.inl b, c⟩
    · have hj : j = 0 := by simpa using hv.2
      have hi : i = 0 := by have := hv.1; omega
      subst hi hj
      exact ⟨empty, rfl, Or.inr ⟨rfl, rfl⟩, rfl⟩
  | insert i c =>
    simp only [call]
    rcases h with h | ⟨rfl, rfl⟩
    · rw [if_neg h.cap_ne]
      obtain ⟨s', a, b, d⟩ := insert_cap_eq h hv c (f + 1)
      exact ⟨s', a, Or.inl b, d⟩
    · have hi : i = 0 := by simpa [valid] using hv
      subst hi
      exact C19_insert_empty_ub c (f + 2)
  | insertRange i ys => exact insertRange_leaves h hv (f + 2)
  | insertText i ys rest =>
    have hp : Src z (some (ys ++ z :: rest)) ys := Or.inl ⟨hv.2, rest, rfl⟩
    have e : step z (f + 3) s (.insertText i ys rest) = insertRange z (f + 3) s i ys := by
      simp [step, insertRaw, hp.rawLen, hp.rawTake]
    rw [e]
    exact insertRange_leaves h hv.1 (f + 2)
  | clean =>
    obtain ⟨s', a, b, c⟩ := Str.clean_ok h
    exact ⟨s', a, b, c⟩
  | copySelf =>
    obtain ⟨s', a, b, c⟩ := Str.copy_ok h
    exact ⟨s', a, Or.inl b, c⟩
  | moveOut => exact ⟨empty, rfl, Or.inr ⟨rfl, rfl⟩, rfl⟩
  | resize n => exact resize_leaves h n
  | reserve n =>
    have := resize_leaves h (s.cap + n)
    simp only [call, step, reserve]
    by_cases h0 : s.cap = 0 ∧ n = 0
    · rw [if_pos (by omega)] at this
      rw [if_pos h0]; exact this
    · rw [if_neg (by omega), if_neg (show ¬ s.cap + n < s.cap by omega)] at this
      rw [if_neg h0]; exact this

theorem run_leaves (f : Nat) : ∀ (os : List (Call α)) {s : Str α} {l : List α}, Rep z s l → ValidHist z s.cap l os →
    Leaves z (runOps (step z (f + 3)) s os) (hist s.cap l os) := by
  intro os
  induction os with
  | nil => intro s l h _; exact ⟨s, rfl, h, rfl⟩
  | cons o os ih =>
    intro s l h hv
    have h1 := step_leaves h o hv.1 f
    have h2 := hv.2
    simp only [hist, runOps]
    cases hc : call s.cap l o with
    | back c' l' =>
      rw [hc] at h1 h2
      obtain ⟨s', a, b, d⟩ := h1
      rw [a]
      subst d
      exact ih b h2
    | undefined =>
      rw [hc] at h1
      have h1 : step z (f + 3) s o = .ub := h1
      rw [h1]; rfl
    | never =>
      rw [hc] at h1
      have h1 : step z (f + 3) s o = .loop := h1
      rw [h1]; rfl

/-- What a program sees at the end of a history: the length, the characters and the capacity, and `data()` as a C string if there is storage. -/
def Seen (z : α) (r : Res (Str α)) : End α → Prop
  | .back c l => ∃ s', r = .ok s' ∧ s'.len = l.length ∧ chars s' = .ok l ∧ s'.cap = c ∧ (0 < c → (∀ x ∈ l, x ≠ z) → cString z s' = .ok l)
  | .undefined => r = .ub
  | .never => r = .loop

theorem Leaves.seen {r : Res (Str α)} {e : End α} (h : Leaves z r e) : Seen z r e := by
  cases e with
  | back c l =>
    obtain ⟨s', a, b, rfl⟩ := h
    refine ⟨s', a, rep_len b, b.chars, rfl, fun hc hz => ?_⟩
    rcases b with b | ⟨rfl, rfl⟩
    · exact b.cString hz
    · simp [empty] at hc
  | undefined => exact h
  | never => exact h

end StrExact

/-- **C16, C17 and C19, exactly.**  Every history of calls on a string constructed from a C string ends as the specification says from the text and the
capacity alone: it returns with that text and that capacity, or is undefined, or never returns, and which of the three never depends on anything else. -/
theorem C16_history_exact {p : CPtr α} {l : List α} (hp : Src z p l) (os : List (Call α)) (hv : ValidHist z (l.length + 1) l os) (f : Nat) :
    ∃ s, ofRaw z p = .ok s ∧ Seen z (runOps (StrExact.step z (f + 3)) s os) (hist (l.length + 1) l os) := by
  obtain ⟨s, a, b, c⟩ := ofRaw_ok hp
  rw [← c] at hv ⊢
  exact ⟨s, a, (run_leaves f os (Or.inl b) hv).seen⟩

example := C16_history_exact (z := 0) (p := some [5, 6, 0]) (l := [5, 6]) (Or.inl ⟨by decide, [], rfl⟩)
  [.insert 1 7, .push 8, .insertRange 2 [1, 2], .assign [3] [], .insertText 0 [4, 4] [], .erase 1] (by decide) 0

/-- The same for a string made by the default constructor. -/
theorem C16_history_exact_default (os : List (Call α)) (hv : ValidHist z 0 [] os) (f : Nat) :
    Seen z (runOps (StrExact.step z (f + 3)) Str.empty os) (hist 0 [] os) :=
  (run_leaves (s := Str.empty) f os (Or.inr ⟨rfl, rfl⟩) hv).seen

example := C16_history_exact_default (z := 0) [.reserve 4, .push 8, .insertRange 0 [1, 2], .push 3] (by decide) 0

/-- **C19, exactly.**  A C string inserted anywhere into a string just made never comes back, unless it is empty; after `reserve(n)` it does exactly if it is
not longer than `n`. -/
theorem C19_insertText_exact {p : CPtr α} {l ys : List α} (hp : Src z p l) (rest : List α) (hy : ∀ c ∈ ys, c ≠ z) {i : Nat} (hi : i ≤ l.length) (n f : Nat) :
    ∃ s, ofRaw z p = .ok s ∧
      ((∃ s', runOps (StrExact.step z (f + 3)) s [.reserve n, .insertText i ys rest] = .ok s' ∧ chars s' = .ok (l.take i ++ (ys ++ l.drop i))) ↔
        ys.length ≤ n) := by
  have hv : ValidHist z (l.length + 1) l [.reserve n, .insertText i ys rest] := by
    refine ⟨trivial, ?_⟩
    rw [show call (l.length + 1) l (.reserve n) = .back (l.length + 1 + n) l from rfl]
    refine ⟨⟨hi, hy⟩, ?_⟩
    split <;> trivial
  obtain ⟨s, a, b⟩ := C16_history_exact hp _ hv f
  refine ⟨s, a, ?_⟩
  have e : hist (l.length + 1) l [.reserve n, .insertText i ys rest] =
      if ys = [] ∨ l.length + ys.length < l.length + 1 + n then .back (l.length + 1 + n) (l.take i ++ (ys ++ l.drop i)) else .never := by
    have e1 : call (l.length + 1) l (.reserve n) = .back (l.length + 1 + n) l := rfl
    simp only [hist, e1]
    simp only [call]
    by_cases hc : ys = [] ∨ l.length + ys.length < l.length + 1 + n
    · rw [if_pos hc]
    · rw [if_neg hc]
  rw [e] at b
  by_cases h : ys.length ≤ n
  · rw [if_pos (Or.inr (by omega))] at b
    obtain ⟨s', c, _, d, _⟩ := b
    exact ⟨fun _ => h, fun _ => ⟨s', c, d⟩⟩
  · rw [if_neg (by
      rintro (h0 | h0)
      · rw [h0] at h; simp at h
      · omega)] at b
    refine ⟨?_, fun h1 => absurd h1 h⟩
    rintro ⟨s', c, _⟩
    have b : _ = Res.loop := b
    rw [b] at c
    cases c

example := C19_insertText_exact (z := 0) (p := some [5, 6, 0]) (l := [5, 6]) (ys := [7, 8]) (Or.inl ⟨by decide, [], rfl⟩) [] (by decide) (i := 1) (by decide) 1 0

theorem StrExact.hist_push (cap : Nat) (cs : List α) : ∀ (l : List α), l.length < cap →
    hist cap l (cs.map .push) = if l.length + cs.length < cap then .back cap (l ++ cs) else .undefined := by
  induction cs with
  | nil => intro l hl; simp [hist, hl]
  | cons c cs ih =>
    intro l hl
    simp only [List.map_cons, hist, call, List.length_cons]
    by_cases h : l.length + 1 < cap
    · simp only [h, if_true]
      rw [ih (l ++ [c]) (by simpa using h)]
      simp only [List.length_append, List.length_singleton, List.append_assoc, List.singleton_append]
      rw [show l.length + 1 + cs.length = l.length + (cs.length + 1) by omega]
    · simp only [h, if_false]
      rw [if_neg (by omega)]

/-- **C17, exactly.**  Appending characters one by one to a string just made, after `reserve(n)`, gives the text with all of them exactly if they are at most
`n`; the next one is undefined. -/
theorem C17_reserve_exact {p : CPtr α} {l : List α} (hp : Src z p l) (cs : List α) (n f : Nat) :
    ∃ s, ofRaw z p = .ok s ∧
      (cs.length ≤ n → ∃ s', runOps (StrExact.step z (f + 3)) s (.reserve n :: cs.map .push) = .ok s' ∧ chars s' = .ok (l ++ cs) ∧ s'.cap = l.length + 1 + n) ∧
      (n < cs.length → runOps (StrExact.step z (f + 3)) s (.reserve n :: cs.map .push) = .ub) := by
  have hpush : ∀ (cs : List α) (cap : Nat) (l : List α), ValidHist z cap l (cs.map .push) := by
    intro cs
    induction cs with
    | nil => intros; trivial
    | cons c cs ih =>
      intro cap l
      refine ⟨trivial, ?_⟩
      cases hc : call cap l (.push c) with
      | back c' l' => exact ih c' l'
      | undefined => trivial
      | never => trivial
  obtain ⟨s, a, b⟩ := C16_history_exact hp (.reserve n :: cs.map .push) ⟨trivial, hpush cs _ l⟩ f
  refine ⟨s, a, ?_⟩
  have e1 : call (l.length + 1) l (.reserve n) = .back (l.length + 1 + n) l := rfl
  simp only [hist, e1] at b
  rw [StrExact.hist_push _ cs l (by omega)] at b
  refine ⟨fun h => ?_, fun h => ?_⟩
  · rw [if_pos (by omega)] at b
    obtain ⟨s', c, _, d, e, _⟩ := b
    exact ⟨s', c, d, e⟩
  · rw [if_neg (by omega)] at b
    exact b

example := C17_reserve_exact (z := 0) (p := some [5, 6, 0]) (l := [5, 6]) (Or.inl ⟨by decide, [], rfl⟩) [7, 8] 2 0

end Flame
