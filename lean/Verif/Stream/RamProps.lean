import Verif.Stream.Ram
import Verif.Vector.Props

/-!
# C45: `RamStream` is a FIFO byte stream
-/

namespace Flame
open Ram

/-- Specification: the positions a range consists of, in order. -/
def Ram.spots (w : Way) (n b e : Nat) : List Nat := match w with
  | .linear => (List.range (e - b)).map (b + ·)
  | .circular => (List.range (if b ≤ e then e - b else e + n - b)).map fun i => (b + i) % n

/-- Specification: a range that lies in the caller's memory. -/
def Ram.Way.inside (w : Way) (n b e : Nat) : Prop := match w with
  | .linear => b ≤ e ∧ e ≤ n
  | .circular => b < n ∧ e < n

def Ram.Op.ok {α : Type} : Op α → Prop
  | .read w mem b e | .write w mem b e => w.inside mem.length b e

/-- Specification of the bytes a range denotes. -/
def Ram.bytes {α : Type} (mem : List α) (ps : List Nat) : List α := ps.filterMap (mem[·]?)

/-- The bytes an operation gives to the stream. -/
def Ram.Op.given {α : Type} : Op α → List α
  | .write w mem b e => bytes mem (spots w mem.length b e)
  | .read _ _ _ _ => []

/-- The bytes an operation gets from the stream: as many of its range as the returned number says. -/
def Ram.Op.taken {α : Type} (o : Op α) (r : Out α) : List α := match o with
  | .read w mem b e => bytes r.mem ((spots w mem.length b e).take r.count.toNat)
  | .write _ _ _ _ => []

namespace RamLemmas
variable {α : Type}

/-- the positions from `p` on, when `k` more follow -/
def Path (w : Way) (n e : Nat) : Nat → List Nat → Prop
  | p, [] => p = e
  | p, q :: qs => p ≠ e ∧ q = p ∧ p < n ∧ Path w n e (w.next n p) qs

theorem path_linear {n e : Nat} (he : e ≤ n) : ∀ k b, e = b + k → Path .linear n e b ((List.range k).map (b + ·)) := by
  intro k
  induction k with
  | zero => intro b h; simp [Path, h]
  | succ k ih =>
    intro b h
    rw [List.range_succ_eq_map]
    simp only [List.map_cons, Path, Nat.add_zero]
    refine ⟨by omega, trivial, by omega, ?_⟩
    have := ih (b + 1) (by omega)
    simp only [Way.next]
    rw [List.map_map]
    refine (congrArg (Path .linear n e (b + 1)) ?_).mp this
    apply List.map_congr_left
    intro i _
    simp; omega

theorem next_circular {n p : Nat} (hp : p < n) : Way.circular.next n p = (p + 1) % n := by
  simp only [Way.next, CIter.inc]
  split
  · rename_i h
    rw [show p + 1 = n by omega, Nat.mod_self]; rfl
  · rename_i h
    rw [Nat.mod_eq_of_lt (by omega)]; omega

theorem path_circular {n e : Nat} (he : e < n) : ∀ k b, b < n → k < n → e = (b + k) % n →
    Path .circular n e b ((List.range k).map fun i => (b + i) % n) := by
  intro k
  induction k with
  | zero => intro b hb _ h; simp [Path]; rw [Nat.add_zero, Nat.mod_eq_of_lt hb] at h; exact h.symm
  | succ k ih =>
    intro b hb hk h
    rw [List.range_succ_eq_map]
    simp only [List.map_cons, Path, Nat.add_zero]
    refine ⟨?_, Nat.mod_eq_of_lt hb, hb, ?_⟩
    · intro hbe
      rw [← hbe] at h
      rcases Nat.lt_or_ge (b + (k + 1)) n with hl | hl
      · rw [Nat.mod_eq_of_lt hl] at h; omega
      · rw [Nat.mod_eq_sub_mod hl, Nat.mod_eq_of_lt (by omega)] at h; omega
    · rw [next_circular hb]
      have := ih ((b + 1) % n) (Nat.mod_lt _ (by omega)) (by omega) (by
        rw [h, Nat.mod_add_mod]; congr 1; omega)
      rw [List.map_map]
      refine (congrArg (Path .circular n e ((b + 1) % n)) ?_).mp this
      apply List.map_congr_left
      intro i _
      simp only [Function.comp_apply, Nat.mod_add_mod]
      congr 1; omega

theorem path_spots {w : Way} {n b e : Nat} (h : w.inside n b e) :
    Path w n e b (spots w n b e) ∧ (spots w n b e).length ≤ n := by
  cases w with
  | linear =>
    obtain ⟨h1, h2⟩ := h
    exact ⟨path_linear h2 _ _ (by omega), by simp [spots]; omega⟩
  | circular =>
    obtain ⟨h1, h2⟩ := h
    refine ⟨path_circular h2 _ _ h1 (by split <;> omega) ?_, by simp [spots]; split <;> omega⟩
    split
    · rw [Nat.mod_eq_of_lt (by omega)]; omega
    · rw [show b + (e + n - b) = e + n by omega, Nat.add_mod_right, Nat.mod_eq_of_lt h2]

theorem spots_nodup {w : Way} {n b e : Nat} (h : w.inside n b e) :
    (spots w n b e).Nodup := by
  cases w with
  | linear =>
    show ((List.range _).map _).Nodup
    rw [List.nodup_iff_pairwise_ne, List.pairwise_map]
    exact List.Pairwise.imp (fun hne heq => hne (by omega)) (List.nodup_iff_pairwise_ne.mp (List.nodup_range (n := e - b)))
  | circular =>
    obtain ⟨h1, h2⟩ := h
    have hk : (if b ≤ e then e - b else e + n - b) < n := by split <;> omega
    show ((List.range _).map _).Nodup
    generalize hkk : (if b ≤ e then e - b else e + n - b) = k at hk
    rw [List.nodup_iff_pairwise_ne, List.pairwise_map]
    refine List.Pairwise.imp_of_mem ?_ (List.nodup_iff_pairwise_ne.mp (List.nodup_range (n := k)))
    intro x y hx hy hne heq
    simp only [List.mem_range] at hx hy
    apply hne
    have hm : ∀ i, i < k → (b + i) % n = if b + i < n then b + i else b + i - n := by
      intro i hi
      split
      · exact Nat.mod_eq_of_lt ‹_›
      · rw [Nat.mod_eq_sub_mod (by omega), Nat.mod_eq_of_lt (by omega)]
    rw [hm x hx, hm y hy] at heq
    split at heq <;> split at heq <;> omega

/-- writing the values to the positions -/
def scatter (mem : List α) : List Nat → List α → List α
  | p :: ps, x :: xs => scatter (mem.set p x) ps xs
  | _, _ => mem

theorem scatter_length (mem : List α) (ps : List Nat) (xs : List α) : (scatter mem ps xs).length = mem.length := by
  induction ps generalizing mem xs with
  | nil => simp [scatter]
  | cons p ps ih => cases xs <;> simp [scatter, ih]

theorem scatter_other (mem : List α) (ps : List Nat) (xs : List α) (q : Nat) (hq : q ∉ ps.take xs.length) :
    (scatter mem ps xs)[q]? = mem[q]? := by
  induction ps generalizing mem xs with
  | nil => simp [scatter]
  | cons p ps ih =>
    cases xs with
    | nil => simp [scatter]
    | cons x xs =>
      simp only [List.length_cons, List.take_succ_cons, List.mem_cons, not_or] at hq
      rw [scatter, ih _ _ hq.2, List.getElem?_set_ne (Ne.symm hq.1)]

theorem scatter_bytes (mem : List α) (ps : List Nat) (xs : List α) (hn : ps.Nodup) (hb : ∀ p ∈ ps, p < mem.length) :
    bytes (scatter mem ps xs) (ps.take xs.length) = xs.take ps.length := by
  induction ps generalizing mem xs with
  | nil => simp [scatter, bytes]
  | cons p ps ih =>
    cases xs with
    | nil => simp [bytes]
    | cons x xs =>
      rw [List.nodup_cons] at hn
      simp only [scatter, List.length_cons, List.take_succ_cons, bytes, List.filterMap_cons]
      rw [scatter_other _ _ _ _ (fun h => hn.1 (List.mem_of_mem_take h)), List.getElem?_set_self (hb p (by simp))]
      have := ih (mem.set p x) xs hn.2 (fun q hq => by simpa using hb q (by simp [hq]))
      simp only [bytes] at this
      rw [this]

/-- the stream holds `l` and can grow -/
structure Holds (v : Vec α) (l : List α) : Prop where
  rep : v.Rep l
  cap : v.cap ≠ 1

theorem holds_empty : Holds (Vec.empty : Vec α) [] := ⟨Vec.rep_empty, by simp [Vec.empty]⟩

theorem get_zero {v : Vec α} {x : α} {l : List α} (h : v.Rep (x :: l)) : v.buf.get 0 = .ok x := by
  obtain ⟨_, _, R, hR⟩ := h
  simp [hR, Cells.get]

theorem readLoop_ok {w : Way} {e : Nat} (ps : List Nat) : ∀ {f : Nat} {v : Vec α} {l mem : List α} {p : Nat},
    Holds v l → Path w mem.length e p ps → ps.length < f →
    ∃ v', readLoop w e f v mem p = .ok (v', scatter mem ps l) ∧ Holds v' (l.drop ps.length) := by
  induction ps with
  | nil =>
    intro f v l mem p h hp hf
    obtain ⟨f, rfl⟩ : ∃ g, f = g + 1 := ⟨f - 1, by simp at hf; omega⟩
    simp only [Path] at hp
    exact ⟨v, by simp [readLoop, hp, scatter], by simpa using h⟩
  | cons q ps ih =>
    intro f v l mem p h hp hf
    obtain ⟨f, rfl⟩ : ∃ g, f = g + 1 := ⟨f - 1, by simp at hf; omega⟩
    obtain ⟨h1, rfl, h3, h4⟩ := hp
    cases l with
    | nil =>
      have hs : v.size = 0 := by rw [h.rep.2.1]; rfl
      exact ⟨v, by rw [readLoop, if_neg h1, if_neg (by simp [hs])]; simp [scatter], by simpa using h⟩
    | cons x l =>
      have hs : v.size ≠ 0 := by rw [h.rep.2.1]; simp
      obtain ⟨v1, a, b, c, _⟩ := Vec.erase_ok (triv := true) h.rep (p := 0) (by omega)
      simp only [List.take_zero, List.nil_append, Nat.zero_add, List.drop_succ_cons, List.drop_zero] at b
      obtain ⟨v2, r1, r2⟩ := ih (f := f) (v := v1) (l := l) (mem := mem.set q x) (p := w.next mem.length q)
        ⟨b, by rw [c]; exact h.cap⟩ (by simpa using h4) (by simp at hf; omega)
      refine ⟨v2, ?_, by simpa using r2⟩
      rw [readLoop, if_neg h1, if_pos hs, if_pos h3, get_zero h.rep]
      simp only [Res.ok_bind, a, scatter]
      exact r1

theorem writeLoop_ok {can : Nat → Bool} (hcan : ∀ n, can n = true) {w : Way} {e : Nat} {mem : List α} (ps : List Nat) :
    ∀ {f : Nat} {v : Vec α} {l : List α} {p : Nat}, Holds v l → Path w mem.length e p ps → ps.length < f →
    ∃ v', writeLoop can w e mem f v p = .ok v' ∧ Holds v' (l ++ bytes mem ps) := by
  induction ps with
  | nil =>
    intro f v l p h hp hf
    obtain ⟨f, rfl⟩ : ∃ g, f = g + 1 := ⟨f - 1, by simp at hf; omega⟩
    simp only [Path] at hp
    exact ⟨v, by simp [writeLoop, hp], by simpa [bytes] using h⟩
  | cons q ps ih =>
    intro f v l p h hp hf
    obtain ⟨f, rfl⟩ : ∃ g, f = g + 1 := ⟨f - 1, by simp at hf; omega⟩
    obtain ⟨h1, rfl, h3, h4⟩ := hp
    obtain ⟨v1, a, b, c, _⟩ := Vec.pushBack_ok (f := f) hcan h.rep (fun hh => h.cap hh.2) mem[q]
    obtain ⟨v2, r1, r2⟩ := ih (f := f) (v := v1) (l := l ++ [mem[q]]) (p := w.next mem.length q)
      ⟨b, by
        rw [c]; split
        · unfold Vec.nextCap; have := h.cap; split <;> omega
        · exact h.cap⟩ h4 (by simp at hf; omega)
    refine ⟨v2, ?_, ?_⟩
    · rw [writeLoop, if_neg h1, List.getElem?_eq_getElem h3]
      simp only [a, Res.ok_bind]
      exact r1
    · simpa [bytes, List.filterMap_cons, List.getElem?_eq_getElem h3] using r2

theorem spots_lt {w : Way} {n b e : Nat} (h : w.inside n b e) :
    ∀ p ∈ spots w n b e, p < n := by
  have hp := (path_spots h).1
  generalize spots w n b e = ps at hp
  clear h
  induction ps generalizing b with
  | nil => simp
  | cons q qs ih =>
    intro p hmem
    obtain ⟨_, rfl, h3, h4⟩ := hp
    simp only [List.mem_cons] at hmem
    rcases hmem with rfl | hmem
    · exact h3
    · exact ih h4 p hmem

theorem step_read {can : Nat → Bool} {v : Vec α} {l : List α} (h : Holds v l) {w : Way} {mem : List α} {b e : Nat}
    (ho : (Op.read w mem b e).ok) :
    ∃ v', step can v (.read w mem b e) = .ok (v', ⟨(min (spots w mem.length b e).length l.length : Nat),
        scatter mem (spots w mem.length b e) l⟩) ∧ Holds v' (l.drop (spots w mem.length b e).length) := by
  obtain ⟨hp, hl⟩ := path_spots ho
  obtain ⟨v', a, b'⟩ := readLoop_ok (f := mem.length + 1) _ h hp (by omega)
  refine ⟨v', ?_, b'⟩
  simp only [step, Ram.read, a, Res.ok_bind]
  congr 3
  rw [h.rep.2.1, b'.rep.2.1, List.length_drop]
  omega

theorem step_write {can : Nat → Bool} (hcan : ∀ n, can n = true) {v : Vec α} {l : List α} (h : Holds v l) {w : Way}
    {mem : List α} {b e : Nat} (ho : (Op.write w mem b e).ok) :
    ∃ v', step can v (.write w mem b e) = .ok (v', ⟨((spots w mem.length b e).length : Nat), mem⟩) ∧
      Holds v' (l ++ bytes mem (spots w mem.length b e)) := by
  obtain ⟨hp, hl⟩ := path_spots ho
  obtain ⟨v', a, b'⟩ := writeLoop_ok hcan (f := mem.length + 1) _ h hp (by omega)
  refine ⟨v', ?_, b'⟩
  have hlen : (bytes mem (spots w mem.length b e)).length = (spots w mem.length b e).length := by
    have hlt := spots_lt ho
    generalize spots w mem.length b e = ps at hlt
    clear a b' hp hl ho h
    induction ps with
    | nil => rfl
    | cons q qs ih =>
      simp only [bytes, List.filterMap_cons, List.getElem?_eq_getElem (hlt q (by simp)), List.length_cons]
      have := ih fun p hp => hlt p (by simp [hp])
      simp only [bytes] at this
      rw [this]
  simp only [step, write, a, Res.ok_bind]
  congr 3
  rw [h.rep.2.1, b'.rep.2.1, List.length_append, hlen]
  omega

end RamLemmas
open RamLemmas

/-- What is seen of one operation on a stream that holds `l`, and what it holds afterwards. -/
def Ram.Op.Correct {α : Type} (l : List α) (o : Op α) (r : Out α) (l' : List α) : Prop := match o with
  | .write w mem b e => r.count = (spots w mem.length b e).length ∧ l' = l ++ bytes mem (spots w mem.length b e)
  | .read w mem b e =>
    r.count = min (spots w mem.length b e).length l.length ∧
    -- the first bytes of the stream are in the range, in order
    bytes r.mem ((spots w mem.length b e).take r.count.toNat) = l.take (spots w mem.length b e).length ∧
    l' = l.drop (spots w mem.length b e).length ∧
    -- nothing else is written
    r.mem.length = mem.length ∧ ∀ q, q ∉ (spots w mem.length b e).take r.count.toNat → r.mem[q]? = mem[q]?

/-- Every operation is correct, along a history. -/
def Ram.Correct {α : Type} : List α → List (Op α) → List (Out α) → List α → Prop
  | l, [], [], l' => l' = l
  | l, o :: os, r :: rs, l' => ∃ l₁, o.Correct l r l₁ ∧ Ram.Correct l₁ os rs l'
  | _, _, _, _ => False

/-- C45: over every history of reads and writes (of linear and circular ranges in the caller's memory) that starts with a
new stream, provided memory can be allocated: no undefined behaviour, no divergence, and every operation does exactly what
a FIFO of bytes does — a write appends its whole range and returns its size, a read takes the first
min(requested, available) bytes in order, stores them at the beginning of its range, touches nothing else and returns
their number. -/
theorem C45_ram_stream {α : Type} {can : Nat → Bool} (hcan : ∀ n, can n = true) (ops : List (Op α)) (hok : ∀ o ∈ ops, o.ok) :
    ∃ v outs l, run can Vec.empty ops = .ok (v, outs) ∧ v.toList = .ok l ∧ Ram.Correct [] ops outs l := by
  suffices H : ∀ (ops : List (Op α)) (v : Vec α) (l : List α), Holds v l → (∀ o ∈ ops, o.ok) →
      ∃ v' outs l', run can v ops = .ok (v', outs) ∧ Holds v' l' ∧ Ram.Correct l ops outs l' by
    obtain ⟨v, outs, l, h1, h2, h3⟩ := H ops _ _ holds_empty hok
    exact ⟨v, outs, l, h1, (rep_observe h2.rep).1, h3⟩
  intro ops
  induction ops with
  | nil => intro v l h _; exact ⟨v, [], l, rfl, h, rfl⟩
  | cons o os ih =>
    intro v l h hok
    have ho := hok o (by simp)
    cases o with
    | read w mem b e =>
      obtain ⟨v1, a, b'⟩ := step_read (can := can) h ho
      obtain ⟨v2, outs, l2, r1, r2, r3⟩ := ih _ _ b' fun o ho => hok o (by simp [ho])
      refine ⟨v2, ⟨(min (spots w mem.length b e).length l.length : Nat), scatter mem (spots w mem.length b e) l⟩ :: outs, l2,
        by simp only [run, a, Res.ok_bind, r1], r2, _, ⟨by simp, ?_, rfl, ?_, ?_⟩, r3⟩
      · have := scatter_bytes mem (spots w mem.length b e) l (spots_nodup ho) (spots_lt ho)
        simp only [Int.toNat_natCast]
        rw [show (spots w mem.length b e).take (min (spots w mem.length b e).length l.length)
          = (spots w mem.length b e).take l.length by
            rcases Nat.le_total (spots w mem.length b e).length l.length with hh | hh
            · rw [Nat.min_eq_left hh, List.take_of_length_le hh, List.take_length]
            · rw [Nat.min_eq_right hh]]
        exact this
      · exact scatter_length ..
      · intro q hq
        apply scatter_other
        simp only [Int.toNat_natCast] at hq
        intro hm
        apply hq
        rcases Nat.le_total (spots w mem.length b e).length l.length with hh | hh
        · rw [Nat.min_eq_left hh, List.take_length]; exact List.mem_of_mem_take hm
        · rw [Nat.min_eq_right hh]; exact hm
    | write w mem b e =>
      obtain ⟨v1, a, b'⟩ := step_write hcan h ho
      obtain ⟨v2, outs, l2, r1, r2, r3⟩ := ih _ _ b' fun o ho => hok o (by simp [ho])
      exact ⟨v2, ⟨((spots w mem.length b e).length : Nat), mem⟩ :: outs, l2, by simp only [run, a, Res.ok_bind, r1], r2, _,
        ⟨rfl, rfl⟩, r3⟩

/-- A history with a wrapping circular read. -/
example : ∃ v, run (fun _ => true) (Vec.empty : Vec Nat)
    [.write .linear [1, 2, 3] 0 3, .write .circular [7, 8, 9] 2 1, .read .circular [0, 0, 0, 0] 3 2, .read .linear [0, 0, 0, 0] 0 4]
    = .ok (v, [⟨3, [1, 2, 3]⟩, ⟨2, [7, 8, 9]⟩, ⟨3, [2, 3, 0, 1]⟩, ⟨2, [9, 7, 0, 0]⟩]) := ⟨_, rfl⟩

/-- C45: what was read, followed by what is left, is what was written. -/
theorem C45_read_is_written {α : Type} {can : Nat → Bool} (hcan : ∀ n, can n = true) (ops : List (Op α)) (hok : ∀ o ∈ ops, o.ok) :
    ∃ v outs l, run can Vec.empty ops = .ok (v, outs) ∧ v.toList = .ok l ∧ outs.length = ops.length ∧
      (List.zipWith Op.taken ops outs).flatten ++ l = (ops.map Op.given).flatten := by
  obtain ⟨v, outs, l, h1, h2, h3⟩ := C45_ram_stream hcan ops hok
  refine ⟨v, outs, l, h1, h2, ?_⟩
  suffices H : ∀ (ops : List (Op α)) (outs : List (Out α)) (l₀ l : List α), Ram.Correct l₀ ops outs l →
      outs.length = ops.length ∧ (List.zipWith Op.taken ops outs).flatten ++ l = l₀ ++ (ops.map Op.given).flatten by
    simpa using H ops outs [] l h3
  intro ops
  induction ops with
  | nil =>
    intro outs l₀ l h
    cases outs with
    | nil => simp only [Ram.Correct] at h; simp [h]
    | cons _ _ => exact h.elim
  | cons o os ih =>
    intro outs l₀ l h
    cases outs with
    | nil => exact h.elim
    | cons r rs =>
      obtain ⟨l₁, c, h'⟩ := h
      obtain ⟨i1, i2⟩ := ih rs l₁ l h'
      refine ⟨by simp [i1], ?_⟩
      cases o with
      | write w mem b e =>
        obtain ⟨_, c2⟩ := c
        simp only [List.zipWith_cons_cons, List.flatten_cons, List.map_cons, Op.taken, Op.given, List.nil_append, i2, c2,
          List.append_assoc]
      | read w mem b e =>
        obtain ⟨_, c2, c3, _⟩ := c
        simp only [List.zipWith_cons_cons, List.flatten_cons, List.map_cons, Op.taken, Op.given, List.nil_append,
          List.append_assoc, i2, c2, c3]
        rw [← List.append_assoc, List.take_append_drop]

/-- C45: if memory for the first block is not available, a write of a non-empty range never returns. -/
theorem C45_alloc_failure_diverges {α : Type} {can : Nat → Bool} (hno : can 8 = false) (w : Way) (mem : List α) {b e : Nat}
    (hbe : b ≠ e) (hb : b < mem.length) (f : Nat) : write can w f Vec.empty mem b e = .loop := by
  have hp : ∀ f x, Vec.pushBack can f (Vec.empty : Vec α) x = .loop := fun f x =>
    C02_alloc_failure_diverges rfl (by simpa [Vec.nextCap, Vec.empty] using hno) x f
  cases f with
  | zero => rfl
  | succ f => simp [write, writeLoop, hbe, List.getElem?_eq_getElem hb, hp]

example : write (fun _ => false) .linear 100 (Vec.empty : Vec Nat) [1] 0 1 = .loop :=
  C45_alloc_failure_diverges rfl _ _ (by decide) (by decide) _

namespace Flame
open Ram
example := C45_read_is_written (can := fun _ => true) (fun _ => rfl)
  [.write .linear [1, 2, 3] 0 3, .write .circular [7, 8, 9] 2 1, .read .circular [0, 0, 0, 0] 3 2] (by simp [Op.ok, Way.inside])
end Flame

end Flame
