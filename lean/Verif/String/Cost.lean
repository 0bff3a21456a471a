import Verif.String.Props
import Verif.Vector.Cost

/-!
# C170: what appending to a `String` costs, and how much storage a `String` keeps

`pushBack(PointerToConst)` (String.hpp 596-621) and `pushBack(&&)` (580-594) with a count of their work: requests for a larger block, and the
characters such a request may have to carry along (the whole old block).
-/

namespace Flame
namespace StrCost
open Str StrSpec Cost
variable {α : Type} [DecidableEq α] {z : α}

/-- String.hpp 534-556: what `resize` asks of the allocator. -/
def resizeWork (s : Str α) (n : Nat) : Work :=
  if s.buf ≠ [] then if s.cap < n then ⟨1, s.cap⟩ else ⟨0, 0⟩ else ⟨1, 0⟩

/-- String.hpp 596-621: `pushBack(PointerToConst)` and its work. -/
def appendRaw (z : α) : Nat → Str α → CPtr α → Res (Str α × Work)
  | 0, _, _ => .loop
  | f + 1, s, p => do
    let n ← rawLen z p
    if s.len + n + 2 < s.cap then
      let xs ← rawTake p n
      let b ← s.buf.wrList s.len xs
      let b ← b.wr (s.len + n) z
      .ok ({ s with buf := b, len := s.len + n }, ⟨0, 0⟩)
    else
      let k := if s.len + n + 2 < s.nextCap then s.nextCap else s.len + n + 2
      let t ← resize z s k
      let r ← appendRaw z f t p
      .ok (r.1, (resizeWork s k).add r.2)

/-- String.hpp 564-578: `pushBack(const &)` and its work. -/
def appendChar (z : α) : Nat → Str α → α → Res (Str α × Work)
  | 0, _, _ => .loop
  | f + 1, s, c =>
    if s.len < s.cap then do
      let b ← s.buf.wr s.len c
      let b ← b.wr (s.len + 1) z
      .ok ({ s with buf := b, len := s.len + 1 }, ⟨0, 0⟩)
    else do
      let t ← resize z s s.nextCap
      let r ← appendChar z f t c
      .ok (r.1, (resizeWork s s.nextCap).add r.2)

/-- String.hpp 580-594: `pushBack(&&)` and its work. -/
def appendTemp (z : α) (f : Nat) (s : Str α) (c : α) : Res (Str α × Work) :=
  if s.len + 1 < s.cap then do
    let b ← s.buf.wr s.len c
    let b ← b.wr (s.len + 1) z
    .ok ({ s with buf := b, len := s.len + 1 }, ⟨0, 0⟩)
  else do
    let t ← resize z s s.nextCap
    let r ← appendChar z f t c
    .ok (r.1, (resizeWork s s.nextCap).add r.2)

/-- One append: a C string (its text and the memory after its terminator), or a character given as a temporary. -/
inductive App (α : Type) where
  | raw (ys rest : List α)
  | temp (c : α)
  deriving Repr, DecidableEq

/-- The text an append adds. -/
def App.text : App α → List α
  | .raw ys _ => ys
  | .temp c => [c]

/-- What a caller must respect: a C string ends at its first terminator. -/
def App.valid (z : α) : App α → Prop
  | .raw ys _ => ∀ c ∈ ys, c ≠ z
  | .temp _ => True

def app (z : α) (f : Nat) (s : Str α) : App α → Res (Str α × Work)
  | .raw ys rest => appendRaw z f s (some (ys ++ z :: rest))
  | .temp c => appendTemp z f s c

/-- The appends of a list one after the other; the work adds up. -/
def apps (z : α) (f : Nat) : Str α → List (App α) → Res (Str α × Work)
  | s, [] => .ok (s, ⟨0, 0⟩)
  | s, a :: as => do
    let r ← app z f s a
    let q ← apps z f r.1 as
    .ok (q.1, r.2.add q.2)

/-! Counting changes nothing about the string. -/

theorem appendRaw_fst (f : Nat) : ∀ (s : Str α) (p : CPtr α),
    (do let r ← appendRaw z f s p
        .ok r.1) = pushBackRaw z f s p := by
  induction f with
  | zero => intro s p; rfl
  | succ f ih =>
    intro s p
    simp only [appendRaw, pushBackRaw]
    cases rawLen z p with
    | ok n =>
      simp only [Res.ok_bind]
      split
      · cases rawTake p n with
        | ok xs =>
          simp only [Res.ok_bind]
          cases s.buf.wrList s.len xs with
          | ok b =>
            simp only [Res.ok_bind]
            cases b.wr (s.len + n) z <;> rfl
          | ub => rfl
          | loop => rfl
        | ub => rfl
        | loop => rfl
      · cases resize z s (if s.len + n + 2 < s.nextCap then s.nextCap else s.len + n + 2) with
        | ok t =>
          simp only [Res.ok_bind]
          rw [← ih]
          cases appendRaw z f t p <;> rfl
        | ub => rfl
        | loop => rfl
    | ub => rfl
    | loop => rfl

theorem appendChar_fst (f : Nat) : ∀ (s : Str α) (c : α),
    (do let r ← appendChar z f s c
        .ok r.1) = pushBack z f s c := by
  induction f with
  | zero => intro s c; rfl
  | succ f ih =>
    intro s c
    simp only [appendChar, pushBack]
    split
    · cases s.buf.wr s.len c with
      | ok b => simp only [Res.ok_bind]; cases b.wr (s.len + 1) z <;> rfl
      | ub => rfl
      | loop => rfl
    · cases resize z s s.nextCap with
      | ok t =>
        simp only [Res.ok_bind]
        rw [← ih]
        cases appendChar z f t c <;> rfl
      | ub => rfl
      | loop => rfl

theorem appendTemp_fst (f : Nat) (s : Str α) (c : α) :
    (do let r ← appendTemp z f s c
        .ok r.1) = pushBackMove z f s c := by
  simp only [appendTemp, pushBackMove]
  split
  · cases s.buf.wr s.len c with
    | ok b => simp only [Res.ok_bind]; cases b.wr (s.len + 1) z <;> rfl
    | ub => rfl
    | loop => rfl
  · cases resize z s s.nextCap with
    | ok t =>
      simp only [Res.ok_bind]
      rw [← appendChar_fst]
      cases appendChar z f t c <;> rfl
    | ub => rfl
    | loop => rfl

/-! One append. -/

/-- How capacity and work are related: the characters carried are paid for by the growth, every request multiplies the capacity by at least 4/3. -/
structure Paid (c c' : Nat) (w : Work) : Prop where
  carried : w.carried + 3 * c ≤ 3 * c'
  asks : 2 ≤ c → c * 4 ^ w.asks ≤ c' * 3 ^ w.asks

theorem Paid.zero (c : Nat) : Paid c c ⟨0, 0⟩ := ⟨by simp, by simp⟩

theorem Paid.trans {a b c : Nat} {v w : Work} (h : Paid a b v) (k : Paid b c w) : Paid a c (v.add w) := by
  have h1 := h.carried
  have h2 := k.carried
  refine ⟨by simp only [Work.add]; omega, fun ha => ?_⟩
  have hh := h.asks ha
  have hk := k.asks (by omega)
  simp only [Work.add, Nat.pow_add]
  calc a * (4 ^ v.asks * 4 ^ w.asks) = a * 4 ^ v.asks * 4 ^ w.asks := by ac_rfl
    _ ≤ b * 3 ^ v.asks * 4 ^ w.asks := Nat.mul_le_mul_right _ hh
    _ = 3 ^ v.asks * (b * 4 ^ w.asks) := by ac_rfl
    _ ≤ 3 ^ v.asks * (c * 3 ^ w.asks) := Nat.mul_le_mul_left _ hk
    _ = c * (3 ^ v.asks * 3 ^ w.asks) := by ac_rfl

theorem Paid.one {c k : Nat} (h1 : c * 3 / 2 ≤ k) (h2 : c < k) : Paid c k ⟨1, c⟩ :=
  ⟨by show c + 3 * c ≤ 3 * k; omega, fun _ => by show c * 4 ^ 1 ≤ k * 3 ^ 1; omega⟩

theorem resizeWork_full {s : Str α} {xs : List α} (h : Full z s xs) {n : Nat} (hn : s.cap < n) : resizeWork s n = ⟨1, s.cap⟩ := by
  simp [resizeWork, h.nonempty, hn]

theorem appendRaw_room {s : Str α} {xs ys rest : List α} (h : Full z s xs) (hy : ∀ c ∈ ys, c ≠ z) (g : Nat)
    (hl : xs.length + ys.length + 2 < s.cap) :
    ∃ s', appendRaw z (g + 1) s (some (ys ++ z :: rest)) = .ok (s', ⟨0, 0⟩) ∧ Full z s' (xs ++ ys) ∧ s'.cap = s.cap := by
  have hp : Src z (some (ys ++ z :: rest)) ys := Or.inl ⟨hy, rest, rfl⟩
  obtain ⟨b, h1, h2⟩ := write_tail (ys := ys) h (by omega)
  refine ⟨⟨b, s.cap, xs.length + ys.length⟩, ?_, h2, rfl⟩
  rw [Res.bind_eq_ok] at h1
  obtain ⟨b1, h3, h4⟩ := h1
  simp only [appendRaw, hp.rawLen, Res.ok_bind, h.len, hl, if_true, hp.rawTake, h3, h4]

/-- The capacity an append that finds too little room asks for. -/
def want (s : Str α) (n : Nat) : Nat := if s.len + n + 2 < s.nextCap then s.nextCap else s.len + n + 2

theorem appendRaw_grow {s : Str α} {xs ys rest : List α} (h : Full z s xs) (hy : ∀ c ∈ ys, c ≠ z) (g : Nat)
    (hl : s.cap ≤ xs.length + ys.length + 2) (hn : s.cap < want s ys.length) {t : Str α × Work}
    (ht : ∀ s1, Full z s1 xs → s1.cap = want s ys.length → resize z s (want s ys.length) = .ok s1 →
      appendRaw z g s1 (some (ys ++ z :: rest)) = .ok t) :
    appendRaw z (g + 1) s (some (ys ++ z :: rest)) = .ok (t.1, (⟨1, s.cap⟩ : Work).add t.2) := by
  have hp : Src z (some (ys ++ z :: rest)) ys := Or.inl ⟨hy, rest, rfl⟩
  have hl' : ¬ xs.length + ys.length + 2 < s.cap := by omega
  obtain ⟨s1, a, b, d⟩ := Str.resize_full h (want s ys.length)
  have hr := ht s1 b (by omega) a
  have hw := resizeWork_full h hn
  rw [appendRaw]
  simp only [hp.rawLen, Res.ok_bind, h.len, hl', if_false]
  unfold want at a hw
  rw [h.len] at a hw
  rw [a, hw]
  simp only [Res.ok_bind, hr]

/-- What one append does to the string, the capacity and the allocator. -/
theorem app_ok {s : Str α} {xs : List α} (h : Full z s xs) (a : App α) (hv : a.valid z) (hc : 2 ≤ s.cap) (f : Nat) :
    ∃ s' w, app z (f + 3) s a = .ok (s', w) ∧ Full z s' (xs ++ a.text) ∧ Paid s.cap s'.cap w ∧
      (s'.cap = s.cap ∨ 2 * s'.cap ≤ 3 * (xs.length + a.text.length + 2)) ∧ w.asks ≤ 2 := by
  cases a with
  | raw ys rest =>
    replace hv : ∀ c ∈ ys, c ≠ z := hv
    simp only [app, App.text]
    have hN : s.nextCap = s.cap * 3 / 2 := rfl
    by_cases hl : xs.length + ys.length + 2 < s.cap
    · obtain ⟨s', e, hf, hcap⟩ := appendRaw_room (rest := rest) h hv (f + 2) hl
      exact ⟨s', _, e, hf, by rw [hcap]; exact Paid.zero _, Or.inl hcap, by simp⟩
    · have hlen := h.len
      obtain ⟨s1, r1, f1, c1⟩ := Str.resize_full h (want s ys.length)
      by_cases hk : xs.length + ys.length + 2 < s.nextCap
      · have hw : want s ys.length = s.nextCap := by simp [want, hlen, hk]
        have hc1 : s1.cap = s.nextCap := by omega
        obtain ⟨s2, e2, hf2, hcap2⟩ := appendRaw_room (rest := rest) f1 hv (f + 1) (by omega)
        refine ⟨s2, (⟨1, s.cap⟩ : Work).add ⟨0, 0⟩, ?_, hf2, ?_, Or.inr (by omega), by simp [Work.add]⟩
        · refine appendRaw_grow h hv (f + 2) (by omega) (by omega) (t := (s2, ⟨0, 0⟩)) ?_
          intro t hft hct hrt
          rw [r1] at hrt; cases hrt
          exact e2
        · exact (Paid.one (k := s1.cap) (by omega) (by omega)).trans (by rw [hcap2]; exact Paid.zero _)
      · have hw : want s ys.length = xs.length + ys.length + 2 := by simp [want, hlen, hk]
        have hc1 : s1.cap = xs.length + ys.length + 2 := by omega
        have hN1 : s1.nextCap = s1.cap * 3 / 2 := rfl
        have hlen1 := f1.len
        have hw1 : want s1 ys.length = s1.nextCap := by
          have : s1.len + ys.length + 2 < s1.nextCap := by omega
          simp [want, this]
        obtain ⟨s2, r2, f2, c2⟩ := Str.resize_full f1 (want s1 ys.length)
        obtain ⟨s3, e3, hf3, hcap3⟩ := appendRaw_room (rest := rest) f2 hv f (by omega)
        have step2 : appendRaw z (f + 2) s1 (some (ys ++ z :: rest)) = .ok (s3, (⟨1, s1.cap⟩ : Work).add ⟨0, 0⟩) := by
          refine appendRaw_grow f1 hv (f + 1) (by omega) (by omega) (t := (s3, ⟨0, 0⟩)) ?_
          intro t hft hct hrt
          rw [r2] at hrt; cases hrt
          exact e3
        refine ⟨s3, (⟨1, s.cap⟩ : Work).add ((⟨1, s1.cap⟩ : Work).add ⟨0, 0⟩), ?_, hf3, ?_, Or.inr (by omega), by simp [Work.add]⟩
        · refine appendRaw_grow h hv (f + 2) (by omega) (by omega) (t := (s3, (⟨1, s1.cap⟩ : Work).add ⟨0, 0⟩)) ?_
          intro t hft hct hrt
          rw [r1] at hrt; cases hrt
          exact step2
        · exact (Paid.one (k := s1.cap) (by omega) (by omega)).trans ((Paid.one (k := s2.cap) (by omega) (by omega)).trans (by rw [hcap3]; exact Paid.zero _))
  | temp c =>
    simp only [app, App.text]
    have hN : s.nextCap = s.cap * 3 / 2 := rfl
    have hlen := h.len
    have hlt := h.lt
    have fits : ∀ (t : Str α) (g : Nat), Full z t xs → xs.length + 1 < t.cap →
        ∃ t', appendChar z (g + 1) t c = .ok (t', ⟨0, 0⟩) ∧ Full z t' (xs ++ [c]) ∧ t'.cap = t.cap := by
      intro t g ht hl
      obtain ⟨b, h1, h2⟩ := write_tail (ys := [c]) ht (by simpa using hl)
      refine ⟨⟨b, t.cap, xs.length + 1⟩, ?_, h2, rfl⟩
      simp only [Raw.wrList, Res.bind_assoc, Res.ok_bind, List.length_singleton] at h1
      rw [Res.bind_eq_ok] at h1
      obtain ⟨b1, h3, h4⟩ := h1
      have hlt : t.len < t.cap := by rw [ht.len]; omega
      simp only [appendChar, hlt, if_true]
      rw [ht.len]; simp [h3, h4]
    by_cases hl : xs.length + 1 < s.cap
    · obtain ⟨s', e, hf, hcap⟩ := fits s 0 h hl
      refine ⟨s', ⟨0, 0⟩, ?_, hf, by rw [hcap]; exact Paid.zero _, Or.inl hcap, by simp⟩
      have hlt : s.len < s.cap := by omega
      have hlt' : s.len + 1 < s.cap := by omega
      simp only [appendChar, hlt, if_true] at e
      simp only [appendTemp, hlt', if_true]
      exact e
    · obtain ⟨s1, r1, f1, c1⟩ := Str.resize_full h s.nextCap
      obtain ⟨s', e, hf, hcap⟩ := fits s1 (f + 2) f1 (by omega)
      refine ⟨s', (⟨1, s.cap⟩ : Work).add ⟨0, 0⟩, ?_, hf, ?_, Or.inr (by simp only [List.length_singleton]; omega), by simp [Work.add]⟩
      · have hlt' : ¬ s.len + 1 < s.cap := by omega
        simp only [appendTemp, hlt', if_false, r1, Res.ok_bind, e]
        rw [resizeWork_full h (by omega)]
      · exact (Paid.one (k := s1.cap) (by omega) (by omega)).trans (by rw [hcap]; exact Paid.zero _)

end StrCost

open Str StrSpec StrCost Cost
variable {α : Type} [DecidableEq α] {z : α}

/-- **C170, strings.**  Appending any number of C strings and of characters given as temporaries to any string with storage for at least two characters
(one character and its terminator): the result holds the text followed by all that was appended; the characters carried along by the growths,
counted over the whole run, are at most three times the growth of the capacity; the capacity stays within 3/2 of text and two more
characters; every request multiplies it by at least 4/3, and no single append makes more than two requests. -/
theorem C170_string_amortised (f : Nat) (as : List (App α)) : ∀ {s : Str α} {xs : List α}, Full z s xs → 2 ≤ s.cap → (∀ a ∈ as, a.valid z) →
    ∃ s' w, apps z (f + 3) s as = .ok (s', w) ∧ Full z s' (xs ++ (as.map App.text).flatten) ∧
      w.carried + 3 * s.cap ≤ 3 * s'.cap ∧
      (s'.cap ≤ s.cap ∨ 2 * s'.cap ≤ 3 * (xs.length + (as.map App.text).flatten.length + 2)) ∧
      s.cap * 4 ^ w.asks ≤ s'.cap * 3 ^ w.asks ∧ w.asks ≤ 2 * as.length := by
  induction as with
  | nil => intro s xs h _ _; exact ⟨s, ⟨0, 0⟩, rfl, by simpa using h, by simp, Or.inl (Nat.le_refl _), by simp, by simp⟩
  | cons a as ih =>
    intro s xs h hc hv
    obtain ⟨s1, w1, e1, f1, p1, b1, n1⟩ := app_ok h a (hv a (by simp)) hc f
    have := p1.carried
    obtain ⟨s2, w2, e2, f2, q1, q2, q3, q4⟩ := ih f1 (by omega) (fun a ha => hv a (by simp [ha]))
    have tr := p1.trans (⟨q1, fun _ => q3⟩ : Paid s1.cap s2.cap w2)
    refine ⟨s2, w1.add w2, ?_, by simpa using f2, tr.carried, ?_, tr.asks hc, ?_⟩
    · simp only [apps, e1, Res.ok_bind, e2]
    · simp only [List.length_append, List.map_cons, List.flatten_cons] at q2 ⊢
      omega
    · simp only [Work.add, List.length_cons]; omega

/-- A string made from a C string meets the hypotheses as soon as it holds a character. -/
example : ∃ s, ofRaw 0 (some [7, 0]) = .ok s ∧ Full 0 s [7] ∧ 2 ≤ s.cap ∧
    ∀ a ∈ [App.raw [1, 2, 3] [9], App.temp 4, App.raw [] []], a.valid 0 := by
  obtain ⟨s, a, b, d⟩ := ofRaw_ok (z := 0) (p := some [7, 0]) (xs := [7]) (Or.inl ⟨by decide, [], rfl⟩)
  refine ⟨s, a, b, by rw [d]; decide, ?_⟩
  intro a ha
  simp only [List.mem_cons, List.not_mem_nil, or_false] at ha
  rcases ha with rfl | rfl | rfl <;> simp [App.valid]

example : (match ofRaw 0 (some [7, 0]) with
    | .ok s => match apps 0 3 s (List.replicate 10 (.raw [1, 2] [])) with
      | .ok (s, w) => some (s.len, s.cap, w) | _ => none
    | _ => none) = some (21, 33, ⟨6, 61⟩) := by decide +kernel

/-- **C170, the first append**: a C string of `n` characters appended to a string without storage makes exactly two requests, the second of which carries
the `n + 2` characters the first one asked for; the storage is `(n + 2) * 3 / 2` characters. -/
theorem C170_string_first (f : Nat) {ys rest : List α} (hy : ∀ c ∈ ys, c ≠ z) :
    ∃ s', appendRaw z (f + 3) Str.empty (some (ys ++ z :: rest)) = .ok (s', ⟨2, ys.length + 2⟩) ∧ Full z s' ys ∧ s'.cap = (ys.length + 2) * 3 / 2 := by
  have hp : Src z (some (ys ++ z :: rest)) ys := Or.inl ⟨hy, rest, rfl⟩
  obtain ⟨s1, r1, f1, c1⟩ := Str.resize_ok (z := z) (s := Str.empty) (xs := ([] : List α)) (Or.inr ⟨rfl, rfl⟩) (n := ys.length + 2) (by omega)
  have hc1 : s1.cap = ys.length + 2 := by rw [c1]; simp [Str.empty]
  have hN1 : s1.nextCap = s1.cap * 3 / 2 := rfl
  have hl1 : s1.len = 0 := f1.len
  have hw1 : want s1 ys.length = s1.nextCap := by
    have : s1.len + ys.length + 2 < s1.nextCap := by omega
    simp [want, this]
  obtain ⟨s2, r2, f2, c2⟩ := Str.resize_full f1 (want s1 ys.length)
  obtain ⟨s3, e3, hf3, hcap3⟩ := appendRaw_room (rest := rest) f2 hy f (by simp; omega)
  have step2 : appendRaw z (f + 2) s1 (some (ys ++ z :: rest)) = .ok (s3, (⟨1, s1.cap⟩ : Work).add ⟨0, 0⟩) := by
    refine appendRaw_grow f1 hy (f + 1) (by simp; omega) (by omega) (t := (s3, ⟨0, 0⟩)) ?_
    intro t hft hct hrt
    rw [r2] at hrt; cases hrt
    exact e3
  refine ⟨s3, ?_, by simpa using hf3, by omega⟩
  rw [appendRaw]
  simp only [hp.rawLen, Res.ok_bind]
  have h0 : ¬ (Str.empty : Str α).len + ys.length + 2 < (Str.empty : Str α).cap := by simp [Str.empty]
  have hk : ¬ (Str.empty : Str α).len + ys.length + 2 < (Str.empty : Str α).nextCap := by simp [Str.empty, Str.nextCap]
  have hl0 : (Str.empty : Str α).len + ys.length + 2 = ys.length + 2 := by simp [Str.empty]
  rw [if_neg h0, if_neg hk, hl0, r1]
  simp only [Res.ok_bind, step2]
  simp [resizeWork, Str.empty, Work.add, hc1]

example : (match appendRaw 0 3 Str.empty (some [5, 6, 7, 0, 9]) with
    | .ok (s, w) => some (s.len, s.cap, w) | _ => none) = some (3, 7, ⟨2, 5⟩) := by decide +kernel

/-! ## Space -/

namespace StrCost

theorem resize_cap {s t : Str α} {n : Nat} (hb : s.buf ≠ []) (h : resize z s n = .ok t) : t.cap = max s.cap n ∧ t.len = s.len ∧ (s.buf.length = s.cap → t.buf.length = t.cap) := by
  unfold resize at h
  rw [if_pos hb] at h
  split at h
  · cases h
    refine ⟨by simp; omega, rfl, fun hl => ?_⟩
    exact Raw.grow_length (by omega)
  · cases h
    exact ⟨by omega, rfl, id⟩

theorem pushBackRaw_cap {p : CPtr α} {n : Nat} (hp : rawLen z p = .ok n) (f : Nat) : ∀ {s s' : Str α}, s.buf ≠ [] → s.buf.length = s.cap →
    pushBackRaw z f s p = .ok s' → s'.cap = s.cap ∨ 2 * s'.cap ≤ 3 * (s.len + n + 2) := by
  induction f with
  | zero => intro s s' _ _ h; cases h
  | succ f ih =>
    intro s s' hb hl h
    simp only [pushBackRaw, hp, Res.ok_bind] at h
    split at h
    · simp only [Res.bind_eq_ok] at h
      obtain ⟨xs, _, b, _, b', _, e⟩ := h
      cases e
      exact Or.inl rfl
    · simp only [Res.bind_eq_ok] at h
      obtain ⟨t, ht, e⟩ := h
      obtain ⟨hc, hln, hbl⟩ := resize_cap hb ht
      have hbl := hbl hl
      have hpos : s.buf.length ≠ 0 := by simpa using hb
      have ht' : t.buf ≠ [] := by
        intro h0
        rw [h0] at hbl
        simp at hbl
        omega
      have := ih ht' hbl e
      rw [hln] at this
      have hN : s.nextCap = s.cap * 3 / 2 := rfl
      split at hc <;> omega

theorem insert_cap (f : Nat) : ∀ {s s' : Str α} {pos : Nat} {c : α}, s.buf ≠ [] → s.buf.length = s.cap →
    insert z f s pos c = .ok s' → s'.cap = s.cap ∨ 2 * s'.cap ≤ 5 * (s.len + 1) := by
  induction f with
  | zero => intro s s' pos c _ _ h; cases h
  | succ f ih =>
    intro s s' pos c hb hl h
    unfold Str.insert at h
    split at h
    · cases h
    split at h
    · rename_i hroom
      split at h
      · have hlt : s.len < s.cap := by omega
        simp only [pushBack, hlt, if_true, Res.bind_eq_ok] at h
        obtain ⟨b, _, b', _, e⟩ := h
        cases e
        exact Or.inl rfl
      · simp only [Res.bind_eq_ok] at h
        obtain ⟨_, _, _, _, _, _, _, _, e⟩ := h
        cases e
        exact Or.inl rfl
    · simp only [Res.bind_eq_ok, reserve] at h
      obtain ⟨t, ht, e⟩ := h
      obtain ⟨hc, hln, hbl⟩ := resize_cap hb ht
      have hbl := hbl hl
      have hpos : s.buf.length ≠ 0 := by simpa using hb
      have ht' : t.buf ≠ [] := by
        intro h0
        rw [h0] at hbl
        simp at hbl
        omega
      have := ih ht' hbl e
      rw [hln] at this
      have hN : s.nextCap = s.cap * 3 / 2 := rfl
      omega

/-- One call of a history: the capacity stays, or is accounted for by a text the string holds before or after the call. -/
theorem step_cap {s : Str α} {l : List α} (h : Full z s l) (o : Op α) (hv : valid z l o) (f : Nat) :
    ∃ s', step z (f + 3) s o = .ok s' ∧ Full z s' (apply l o) ∧
      (s'.cap = s.cap ∨ 2 * s'.cap ≤ 5 * (max l.length (apply l o).length + 1) + 1) := by
  obtain ⟨s', e, hf⟩ := step_full h o hv f
  refine ⟨s', e, hf, ?_⟩
  have hne := h.nonempty
  have hbl := h.blen
  have hln := h.len
  cases o with
  | append ys r =>
    have hp : Src z (some (ys ++ z :: r)) ys := Or.inl ⟨hv, r, rfl⟩
    have := pushBackRaw_cap hp.rawLen (f + 3) hne hbl e
    simp only [apply, List.length_append]
    omega
  | appendNull =>
    have hp : Src z (none : CPtr α) [] := Or.inr ⟨rfl, rfl⟩
    have := pushBackRaw_cap hp.rawLen (f + 3) hne hbl e
    simp only [apply, List.length_nil] at this ⊢
    omega
  | assign ys r =>
    obtain ⟨s1, a, _, c⟩ := assignRaw_ok (z := z) (p := some (ys ++ z :: r)) (Or.inl h) ⟨hv, r, rfl⟩ (f + 1)
    have : s1 = s' := by
      have e' : assignRaw z (f + 1 + 2) s (some (ys ++ z :: r)) = .ok s' := e
      rw [a] at e'; cases e'; rfl
    subst this
    simp only [apply]
    split at c <;> omega
  | popBack =>
    obtain ⟨s1, a, _, c⟩ := popBack_full h
    have e' : popBack z s = .ok s' := e
    rw [a] at e'; cases e'; exact Or.inl c
  | erase i =>
    obtain ⟨s1, a, _, c⟩ := erase_ok h hv
    have e' : erase z s i = .ok s' := e
    rw [a] at e'; cases e'; exact Or.inl c
  | eraseRange i j =>
    obtain ⟨s1, a, _, c⟩ := eraseRange_ok h hv.1 hv.2
    have e' : eraseRange z s i j = .ok s' := e
    rw [a] at e'; cases e'; exact Or.inl c
  | insert i c =>
    have := insert_cap (f + 3) hne hbl e
    omega
  | clean =>
    obtain ⟨s1, a, _, c⟩ := clean_full h
    have e' : clean z s = .ok s' := e
    rw [a] at e'; cases e'; exact Or.inl c
  | copySelf =>
    obtain ⟨s1, a, _, c⟩ := copy_ok (Or.inl h)
    have e' : copy z s = .ok s' := e
    rw [a] at e'; cases e'
    simp only [apply]
    omega

/-- The longest text along a history. -/
def peak (l : List α) : List (Op α) → Nat
  | [] => l.length
  | o :: os => max l.length (peak (apply l o) os)

end StrCost

/-- **C170, the storage a string keeps.**  However a string made from a C string is used (appending, assigning, popping, erasing, inserting, cleaning,
copying), its storage never exceeds 5/2 of the longest text it ever held, plus three characters. -/
theorem C170_string_space (p : CPtr α) (l : List α) (hp : Src z p l) (os : List (Op α)) (hv : ValidHist z l os) (f : Nat) :
    ∃ s s', ofRaw z p = .ok s ∧ runOps (step z (f + 3)) s os = .ok s' ∧ Full z s' (run l os) ∧ 2 * s'.cap ≤ 5 * peak l os + 6 := by
  have key : ∀ (os : List (Op α)) (s : Str α) (l : List α), Full z s l → ValidHist z l os → ∀ M, 2 * s.cap ≤ 5 * M + 6 → peak l os ≤ M →
      ∃ s', runOps (step z (f + 3)) s os = .ok s' ∧ Full z s' (run l os) ∧ 2 * s'.cap ≤ 5 * M + 6 := by
    intro os
    induction os with
    | nil => intro s l h _ M hM _; exact ⟨s, rfl, h, hM⟩
    | cons o os ih =>
      intro s l h hv M hM hP
      obtain ⟨s1, a, b, c⟩ := step_cap h o hv.1 f
      simp only [peak] at hP
      have hlast : (apply l o).length ≤ peak (apply l o) os := by cases os <;> simp only [peak] <;> omega
      obtain ⟨s', d, e, g⟩ := ih s1 (apply l o) b hv.2 M (by omega) (by omega)
      exact ⟨s', by rw [runOps_cons_ok a]; exact d, e, g⟩
  obtain ⟨s, a, b, c⟩ := ofRaw_ok hp
  have h0 : l.length ≤ peak l os := by cases os <;> simp only [peak] <;> omega
  obtain ⟨s', d, e, g⟩ := key os s l b hv (peak l os) (by omega) (Nat.le_refl _)
  exact ⟨s, s', a, d, e, g⟩

example : ValidHist 0 [3, 4] [.append [5, 6, 7] [1], .erase 0, .insert 1 8, .assign [2, 2, 2, 2, 2, 2, 2, 2, 2] [], .popBack] ∧
    peak [3, 4] [.append [5, 6, 7] [1], .erase 0, .insert 1 8, .assign [2, 2, 2, 2, 2, 2, 2, 2, 2] [], .popBack] = 9 := by decide

end Flame
