import Verif.Buf

/-!
# Moving elements whose type keeps its value, and reading one's own cells

`keep` says whether moving from an object leaves its value in place (trivially copyable types such as integers); otherwise
the value of a moved-from object is unspecified.
-/

namespace Flame
namespace Cells
variable {α : Type u}

/-- What a moved-from object with value `a` holds. -/
def rest (keep : Bool) (a : α) : Cell α := if keep then .live a else .junk

/-- `*dst = move(*src)`. -/
def moveCellK (triv keep : Bool) (b : Cells α) (src dst : Nat) : Res (Cells α) := do
  let a ← b.get src
  assign triv (b.set src (rest keep a)) dst a

/-- Backward loop `for k = n-1 .. 0: *(pos+k+d) = move(*(pos+k))` (Vector.hpp 759-761, 831-833; Array.hpp 824-826, 886-890). -/
def shiftUpK (triv keep : Bool) (b : Cells α) (pos d : Nat) : Nat → Res (Cells α)
  | 0 => .ok b
  | n + 1 => do
    let b ← moveCellK triv keep b (pos + n) (pos + n + d)
    shiftUpK triv keep b pos d n

/-- Forward loop `*dst++ = *src++` where the source is in the same storage (Vector.hpp 833-837; Array.hpp 892-896). -/
def assignOwn (triv : Bool) (b : Cells α) (src dst : Nat) : Nat → Res (Cells α)
  | 0 => .ok b
  | n + 1 => do
    let x ← b.get src
    let b ← b.assign triv dst x
    assignOwn triv b (src + 1) (dst + 1) n

/-- When no value is kept this is the loop of the containers' models. -/
theorem shiftUpK_false (triv : Bool) (b : Cells α) (pos d n : Nat) : shiftUpK triv false b pos d n = shiftUp triv b pos d n := by
  induction n generalizing b with
  | zero => rfl
  | succ n ih =>
    have : moveCellK triv false b (pos + n) (pos + n + d) = moveCell triv b (pos + n) (pos + n + d) := by
      simp [moveCellK, moveCell, rest]
    simp only [shiftUpK, shiftUp, this, ih]

theorem moveCellK_up {A C R : Cells α} {x : α} {i j : Nat} {triv : Bool} (keep : Bool) (hC : 0 < C.length)
    (hc : triv = true ∨ ∀ c ∈ C, c ≠ .raw) (hi : i = A.length) (hj : j = A.length + C.length) :
    moveCellK triv keep (A ++ .live x :: (C ++ R)) i j =
      .ok (A ++ ((rest keep x :: C).take C.length ++ .live x :: R)) := by
  subst hi
  rcases List.eq_nil_or_concat C with rfl | ⟨C0, c, rfl⟩
  · simp at hC
  rw [List.concat_eq_append] at *
  unfold moveCellK
  rw [get_append rfl]
  simp only [Res.ok_bind]
  have h1 : (A ++ Cell.live x :: (C0 ++ [c] ++ R)).set A.length (rest keep x) = (A ++ rest keep x :: C0) ++ c :: R := by simp
  rw [h1, assign_append x (by simp [hj]) (by rcases hc with h | h; exact Or.inl h; exact Or.inr (h c (by simp)))]
  have h2 : (rest keep x :: (C0 ++ [c])).take (C0 ++ [c]).length = rest keep x :: C0 := by
    rw [← List.cons_append, List.take_left' (by simp)]
  rw [h2]
  simp

/-- The shifted values, and what is left behind them. -/
theorem shiftUpK_append {A C R : Cells α} {M : List α} {pos : Nat} {triv : Bool} (keep : Bool) (hC : 0 < C.length)
    (hc : triv = true ∨ ∀ c ∈ C, c ≠ .raw) (hp : pos = A.length) :
    shiftUpK triv keep (A ++ (M.map .live ++ (C ++ R))) pos C.length M.length =
      .ok (A ++ ((M.map (rest keep) ++ C).take C.length ++ (M.map .live ++ R))) := by
  induction M using snocInduction generalizing R C with
  | nil => simp [shiftUpK]
  | snoc M x ih =>
    simp only [List.length_append, List.length_singleton, shiftUpK, List.map_append, List.map_cons, List.map_nil]
    have h1 : A ++ (List.map Cell.live M ++ [Cell.live x] ++ (C ++ R)) = (A ++ List.map Cell.live M) ++ Cell.live x :: (C ++ R) := by simp
    rw [h1, moveCellK_up keep hC hc (by simp [hp]) (by simp [hp])]
    simp only [Res.ok_bind, List.append_assoc]
    have hl : ((rest keep x :: C).take C.length).length = C.length := by simp
    have := ih (C := (rest keep x :: C).take C.length) (R := Cell.live x :: R) (by omega) (by
      rcases hc with h | h
      · exact Or.inl h
      · refine Or.inr fun c h' => ?_
        rcases List.mem_cons.1 (List.mem_of_mem_take h') with h2 | h2
        · rw [h2]; cases keep <;> simp [rest]
        · exact h c h2)
    rw [hl] at this
    rw [this]
    have e : ∀ (X Y : Cells α) (n : Nat), (X ++ Y.take n).take n = (X ++ Y).take n := by
      intro X Y n
      rw [List.take_append, List.take_append, List.take_take]
      congr 2; omega
    rw [e]
    simp

theorem assignOwn_ahead {triv : Bool} : ∀ {xs : List α} {Q : Cells α} {P : Cells α} {s src dst : Nat},
    dst = P.length → src = P.length + s → xs.length ≤ Q.length → (triv = true ∨ ∀ c ∈ Q.take xs.length, c ≠ .raw) →
    (∀ k (h : k < xs.length), Q[s + k]? = some (.live xs[k])) →
    assignOwn triv (P ++ Q) src dst xs.length = .ok (P ++ (xs.map .live ++ Q.drop xs.length)) := by
  intro xs
  induction xs with
  | nil => intros; simp [assignOwn]
  | cons x xs ih =>
    intro Q P s src dst hd hs hl hc hq
    subst hd hs
    cases Q with
    | nil => simp at hl
    | cons q Q =>
      have h0 := hq 0 (by simp)
      simp only [List.length_cons, assignOwn]
      have g : (P ++ q :: Q).get (P.length + s) = .ok x := by
        simp only [Cells.get, List.getElem?_append_right (Nat.le_add_right _ _), Nat.add_sub_cancel_left]
        simp only [Nat.add_zero, List.getElem_cons_zero] at h0
        rw [h0]
      rw [g]
      simp only [Res.ok_bind]
      rw [assign_append x rfl (by rcases hc with h | h; exact Or.inl h; exact Or.inr (h q (by simp)))]
      simp only [Res.ok_bind]
      have := ih (Q := Q) (P := P ++ [Cell.live x]) (s := s) (src := P.length + s + 1) (dst := P.length + 1) (by simp) (by simp; omega)
        (by simpa using hl) (by
          rcases hc with h | h
          · exact Or.inl h
          · exact Or.inr fun c hc => h c (by simp [hc]))
        (fun k hk => by
          have := hq (k + 1) (by simpa using hk)
          rw [show s + (k + 1) = (s + k) + 1 by omega] at this
          simpa using this)
      simp only [List.append_assoc, List.singleton_append] at this
      rw [this]
      simp

/-- The sequence that grows by copying its own elements from `src` on. -/
def extend (L : List α) (src : Nat) : Nat → List α
  | 0 => L
  | n + 1 => match L[src]? with
    | some x => extend (L ++ [x]) (src + 1) n
    | none => L

theorem assignOwn_behind {triv : Bool} : ∀ {n : Nat} {L : List α} {Q : Cells α} {src dst : Nat}, dst = L.length → src < L.length →
    n ≤ Q.length → (triv = true ∨ ∀ c ∈ Q.take n, c ≠ .raw) →
    assignOwn triv (L.map .live ++ Q) src dst n = .ok ((extend L src n).map .live ++ Q.drop n) := by
  intro n
  induction n with
  | zero => intros; simp [assignOwn, extend]
  | succ n ih =>
    intro L Q src dst hd hs hl hc
    subst hd
    cases Q with
    | nil => simp at hl
    | cons q Q =>
      simp only [assignOwn, extend]
      have g : Cells.get (L.map Cell.live ++ q :: Q) src = .ok L[src] := by
        simp only [Cells.get]
        rw [List.getElem?_append_left (by simpa using hs)]
        simp [hs]
      rw [g]
      simp only [Res.ok_bind]
      rw [assign_append L[src] (by simp) (by rcases hc with h | h; exact Or.inl h; exact Or.inr (h q (by simp)))]
      simp only [Res.ok_bind]
      have := ih (L := L ++ [L[src]]) (Q := Q) (src := src + 1) (dst := L.length + 1) (by simp) (by simp; omega) (by simpa using hl) (by
          rcases hc with h | h
          · exact Or.inl h
          · exact Or.inr fun c hc => h c (by simp [hc]))
      simp only [List.map_append, List.map_cons, List.map_nil, List.append_assoc, List.singleton_append] at this
      rw [this]
      simp [List.getElem?_eq_getElem hs]

/-- Copying from a position before the end repeats the elements between that position and the end. -/
theorem extend_eq {L : List α} {src n : Nat} (hs : src < L.length) :
    (extend L src n).length = L.length + n ∧
    (∀ k, k < L.length → (extend L src n)[k]? = L[k]?) ∧
    ∀ k, k < n → (extend L src n)[L.length + k]? = L[src + k % (L.length - src)]? := by
  induction n generalizing L src with
  | zero => exact ⟨rfl, fun _ _ => rfl, fun k h => absurd h (by omega)⟩
  | succ n ih =>
    simp only [extend, List.getElem?_eq_getElem hs]
    obtain ⟨a, b, c⟩ := ih (L := L ++ [L[src]]) (src := src + 1) (by simp; omega)
    simp only [List.length_append, List.length_singleton] at a b c
    refine ⟨by omega, fun k hk => ?_, fun k hk => ?_⟩
    · rw [b k (by omega), List.getElem?_append_left hk]
    · cases k with
      | zero =>
        rw [Nat.add_zero, b _ (by omega), List.getElem?_append_right (by omega)]
        simp [hs]
      | succ k =>
        have := c k (by omega)
        rw [show L.length + 1 + k = L.length + (k + 1) by omega, show L.length + 1 - (src + 1) = L.length - src by omega] at this
        rw [this]
        have hpos : 0 < L.length - src := by omega
        have hm := Nat.mod_lt k hpos
        have hk' : (k + 1) % (L.length - src) = if k % (L.length - src) + 1 = L.length - src then 0 else k % (L.length - src) + 1 := by
          rw [Nat.add_mod]
          by_cases h1 : L.length - src = 1
          · simp [h1, Nat.mod_one]
          · rw [Nat.mod_eq_of_lt (a := 1) (by omega)]
            split
            · next h => rw [h, Nat.mod_self]
            · next h => exact Nat.mod_eq_of_lt (by omega)
        rw [hk']
        split
        · next h =>
          rw [show src + 1 + k % (L.length - src) = L.length by omega, List.getElem?_append_right (by omega)]
          simp [hs]
        · next h => rw [List.getElem?_append_left (by omega)]; congr 1; omega

end Cells
end Flame
