import Verif.Vector.Lemmas
import Verif.List.Lemmas4

/-!
# C170: what appending and inserting cost

`Vector::pushBack` (Vector.hpp 698-711, 921-932) with a count of its work: how often the allocator is asked for a larger block and how many
elements such a request carries along (`realloc` may have to copy the whole block).
-/

namespace Flame
namespace Cost
variable {α : Type u}

/-- Work done: requests for a larger block, elements carried along by them. -/
structure Work where
  asks : Nat
  carried : Nat
  deriving Repr, DecidableEq

def Work.add (a b : Work) : Work := ⟨a.asks + b.asks, a.carried + b.carried⟩

/-- Vector.hpp 568-604: what `reserve` does to the allocator: nothing if there is room, otherwise one request carrying the elements. -/
def reserveWork (v : Vec α) (n : Nat) : Work := if v.cap < n then ⟨1, v.size⟩ else ⟨0, 0⟩

/-- Vector.hpp 698-711: `pushBack` and its work. -/
def push (can : Nat → Bool) : Nat → Vec α → α → Res (Vec α × ULift.{u} Work)
  | 0, _, _ => .loop
  | f + 1, v, x =>
    if v.size ≠ v.cap then do
      let b ← v.buf.construct v.size x
      .ok ({ v with buf := b, size := v.size + 1 }, ⟨⟨0, 0⟩⟩)
    else do
      let r ← push can f (v.reserve can v.nextCap) x
      .ok (r.1, ⟨(reserveWork v v.nextCap).add r.2.down⟩)

/-- Appending the values one by one; the work adds up. -/
def pushes (can : Nat → Bool) (f : Nat) : Vec α → List α → Res (Vec α × ULift.{u} Work)
  | v, [] => .ok (v, ⟨⟨0, 0⟩⟩)
  | v, x :: xs => do
    let r ← push can f v x
    let q ← pushes can f r.1 xs
    .ok (q.1, ⟨r.2.down.add q.2.down⟩)

/-- Counting changes nothing about the vector. -/
theorem push_fst {can : Nat → Bool} (f : Nat) : ∀ (v : Vec α) (x : α),
    (do let r ← push can f v x
        .ok r.1) = v.pushBack can f x := by
  induction f with
  | zero => intro v x; rfl
  | succ f ih =>
    intro v x
    simp only [push, Vec.pushBack]
    split
    · cases v.buf.construct v.size x <;> rfl
    · rw [← ih]
      cases push can f (v.reserve can v.nextCap) x <;> rfl

/-- One append: the work it does and the capacity it leaves. -/
theorem push_ok {can : Nat → Bool} (hcan : ∀ n, can n = true) {v : Vec α} {l : List α} (h : Vec.Rep v l) (hc : v.cap ≠ 1) (x : α) (f : Nat) :
    ∃ v' w, push can (f + 2) v x = .ok (v', ⟨w⟩) ∧ Vec.Rep v' (l ++ [x]) ∧
      (v.size ≠ v.cap → v'.cap = v.cap ∧ w = ⟨0, 0⟩) ∧ (v.size = v.cap → v'.cap = v.nextCap ∧ w = ⟨1, v.size⟩) := by
  by_cases hs : v.size = v.cap
  · obtain ⟨v', e, hr, hcap, _⟩ := Vec.pushBack_ok hcan (f := f) h (by omega) x
    have hf := push_fst (can := can) (f + 2) v x
    rw [e] at hf
    have hg := Vec.nextCap_gt hc
    have hres : (v.reserve can v.nextCap).cap = v.nextCap := by rw [Vec.reserve_cap _ (hcan _)]; omega
    have hroom : (v.reserve can v.nextCap).size ≠ (v.reserve can v.nextCap).cap := by rw [hres, Vec.reserve_size]; omega
    have hp : ∀ r, push can (f + 2) v x = .ok r → r.2.down = ⟨1, v.size⟩ := by
      intro r hr
      simp only [push, hs, ne_eq, not_true, if_false, hroom, not_false_eq_true, if_true] at hr
      cases hcc : (v.reserve can v.nextCap).buf.construct (v.reserve can v.nextCap).size x <;> rw [hcc] at hr <;> simp at hr
      subst hr
      simp [reserveWork, hg, Work.add, hs]
    cases hr' : push can (f + 2) v x with
    | ok r =>
      rw [hr'] at hf
      simp only [Res.ok_bind, Res.ok.injEq] at hf
      have hw := hp r hr'
      refine ⟨v', ⟨1, v.size⟩, ?_, hr, fun hh => absurd hs hh, fun _ => ⟨by rw [hcap, if_pos hs], rfl⟩⟩
      rw [← hf, ← hw]
    | ub => rw [hr'] at hf; cases hf
    | loop => rw [hr'] at hf; cases hf
  · obtain ⟨v', e, hr, hcap, _⟩ := Vec.pushBack_room (can := can) (f := f + 1) h hs x
    refine ⟨v', ⟨0, 0⟩, ?_, hr, fun _ => ⟨hcap, rfl⟩, fun hh => absurd hh hs⟩
    simp only [push, ne_eq, hs, not_false_eq_true, if_true]
    simp only [Vec.pushBack, ne_eq, hs, not_false_eq_true, if_true] at e
    cases hcc : v.buf.construct v.size x <;> rw [hcc] at e <;> simp at e ⊢
    exact e

/-- **C170, vectors.**  Appending any number of values to any vector whose capacity is not 1: the elements carried along by the growths,
counted over the whole run, are at most four times the growth of the capacity, the capacity stays within 3/2 of what is
used, and every request multiplies it by at least 4/3: appending takes constant time on average and asks a logarithmic number of times. -/
theorem C170_vector_amortised {can : Nat → Bool} (hcan : ∀ n, can n = true) (f : Nat) (xs : List α) :
    ∀ {v : Vec α} {l : List α}, Vec.Rep v l → v.cap ≠ 1 →
    ∃ v' w, pushes can (f + 2) v xs = .ok (v', ⟨w⟩) ∧ Vec.Rep v' (l ++ xs) ∧
      w.carried + 4 * v.cap ≤ 4 * v'.cap ∧ (v'.cap ≤ v.cap ∨ v'.cap ≤ 8 ∨ 2 * v'.cap ≤ 3 * (l.length + xs.length)) ∧
      (2 ≤ v.cap → v.cap * 4 ^ w.asks ≤ v'.cap * 3 ^ w.asks) := by
  induction xs with
  | nil => intro v l h _; exact ⟨v, ⟨0, 0⟩, rfl, by simpa using h, by simp, Or.inl (Nat.le_refl _), fun _ => by simp⟩
  | cons x xs ih =>
    intro v l h hc
    obtain ⟨v1, w1, e1, h1, hroom, hfull⟩ := push_ok hcan h hc x f
    have hl1 := h1.2.1
    have hl0 := h.2.1
    have hcap1 : v1.cap ≠ 1 := by
      by_cases hs : v.size = v.cap
      · have := Vec.nextCap_gt hc; rw [(hfull hs).1]
        unfold Vec.nextCap at this ⊢; split <;> omega
      · rw [(hroom hs).1]; exact hc
    obtain ⟨v2, w2, e2, h2, b1, b2, b3⟩ := ih h1 hcap1
    refine ⟨v2, w1.add w2, ?_, by simpa using h2, ?_, ?_, ?_⟩
    · simp only [pushes, e1, Res.ok_bind, e2]
    · by_cases hs : v.size = v.cap
      · obtain ⟨p, rfl⟩ := hfull hs
        simp only [Work.add]
        have hn : v.size + 4 * v.cap ≤ 4 * v1.cap := by
          rw [p, hs]; unfold Vec.nextCap; split <;> omega
        omega
      · obtain ⟨p, rfl⟩ := hroom hs
        simp only [Work.add]; omega
    · have hbase : v1.cap ≤ v.cap ∨ v1.cap ≤ 8 ∨ 2 * v1.cap ≤ 3 * l.length := by
        by_cases hs : v.size = v.cap
        · rw [(hfull hs).1]; unfold Vec.nextCap; split
          · right; right; omega
          · right; left; omega
        · left; rw [(hroom hs).1]; exact Nat.le_refl _
      simp only [List.length_append, List.length_cons, List.length_nil] at b2 ⊢
      omega
    · intro hge
      by_cases hs : v.size = v.cap
      · obtain ⟨p, rfl⟩ := hfull hs
        have hn : 4 * v.cap ≤ 3 * v1.cap := by
          rw [p]; unfold Vec.nextCap; split <;> omega
        have := b3 (by omega)
        simp only [Work.add, Nat.add_comm 1 w2.asks, Nat.pow_succ]
        calc v.cap * (4 ^ w2.asks * 4) = 4 * v.cap * 4 ^ w2.asks := by ac_rfl
          _ ≤ 3 * v1.cap * 4 ^ w2.asks := Nat.mul_le_mul_right _ hn
          _ = 3 * (v1.cap * 4 ^ w2.asks) := by ac_rfl
          _ ≤ 3 * (v2.cap * 3 ^ w2.asks) := Nat.mul_le_mul_left _ this
          _ = v2.cap * (3 ^ w2.asks * 3) := by ac_rfl
      · obtain ⟨p, rfl⟩ := hroom hs
        simp only [Work.add, Nat.zero_add]
        rw [← p]; exact b3 (by omega)

example : Vec.Rep (Vec.empty : Vec Nat) [] ∧ (Vec.empty : Vec Nat).cap ≠ 1 := ⟨Vec.rep_empty, by decide⟩
example : (match pushes (fun _ => true) 2 (Vec.empty : Vec Nat) (List.replicate 20 7) with
    | .ok (v, w) => some (v.cap, w.down) | _ => none) = some (27, ⟨4, 38⟩) := by decide +kernel

/-- Filling an empty vector with `n` values carries at most `4 n` elements, whatever `n`. -/
theorem C170_vector_fill {can : Nat → Bool} (hcan : ∀ n, can n = true) (f : Nat) (xs : List α) :
    ∃ v' w, pushes can (f + 2) (Vec.empty : Vec α) xs = .ok (v', ⟨w⟩) ∧ Vec.Rep v' xs ∧ w.carried ≤ 4 * xs.length := by
  have key : ∀ (xs : List α) {v : Vec α} {l : List α}, Vec.Rep v l → 8 ≤ v.cap →
      ∃ v' w, pushes can (f + 2) v xs = .ok (v', ⟨w⟩) ∧ Vec.Rep v' (l ++ xs) ∧ 7 * w.carried + 16 * v.cap ≤ 16 * v'.cap ∧
        (v'.cap ≤ v.cap ∨ 2 * v'.cap ≤ 3 * (l.length + xs.length)) := by
    intro xs
    induction xs with
    | nil => intro v l h _; exact ⟨v, ⟨0, 0⟩, rfl, by simpa using h, by simp, Or.inl (Nat.le_refl _)⟩
    | cons x xs ih =>
      intro v l h hc
      obtain ⟨v1, w1, e1, h1, hroom, hfull⟩ := push_ok hcan h (by omega) x f
      have hl0 := h.2.1
      have hge : 8 ≤ v1.cap := by
        by_cases hs : v.size = v.cap
        · rw [(hfull hs).1]; unfold Vec.nextCap; split <;> omega
        · rw [(hroom hs).1]; exact hc
      obtain ⟨v2, w2, e2, h2, b1, b2⟩ := ih h1 hge
      refine ⟨v2, w1.add w2, ?_, by simpa using h2, ?_, ?_⟩
      · simp only [pushes, e1, Res.ok_bind, e2]
      · by_cases hs : v.size = v.cap
        · obtain ⟨p, rfl⟩ := hfull hs
          simp only [Work.add]
          have hn : 7 * v.size + 16 * v.cap ≤ 16 * v1.cap := by
            rw [p, hs]; unfold Vec.nextCap; split <;> omega
          omega
        · obtain ⟨p, rfl⟩ := hroom hs
          simp only [Work.add]; omega
      · have hbase : v1.cap ≤ v.cap ∨ 2 * v1.cap ≤ 3 * l.length := by
          by_cases hs : v.size = v.cap
          · right; rw [(hfull hs).1]; unfold Vec.nextCap; split <;> omega
          · left; rw [(hroom hs).1]; exact Nat.le_refl _
        simp only [List.length_append, List.length_cons, List.length_nil] at b2 ⊢
        omega
  cases xs with
  | nil => exact ⟨Vec.empty, ⟨0, 0⟩, rfl, Vec.rep_empty, by simp⟩
  | cons x xs =>
    obtain ⟨v1, w1, e1, h1, _, hfull⟩ := push_ok hcan (Vec.rep_empty (α := α)) (show (0 : Nat) ≠ 1 by decide) x f
    obtain ⟨p, rfl⟩ := hfull rfl
    have hc8 : v1.cap = 8 := p
    obtain ⟨v2, w2, e2, h2, b1, b2⟩ := key xs h1 (by omega)
    refine ⟨v2, Work.add ⟨1, (Vec.empty : Vec α).size⟩ w2, by simp only [pushes, e1, Res.ok_bind, e2], by simpa using h2, ?_⟩
    simp only [Work.add, List.length_cons, List.nil_append, List.length_nil] at b2 ⊢
    have : (Vec.empty : Vec α).size = 0 := rfl
    omega

example : (match pushes (fun _ => true) 2 (Vec.empty : Vec Nat) (List.replicate 9 7) with
    | .ok (_, w) => some w.down.carried | _ => none) = some 8 := by decide +kernel

/-- A vector of capacity 1 never gets to append a second value: the growth computes the same capacity again. -/
theorem C170_capacity_one_violated {can : Nat → Bool} {v : Vec α} (hs : v.size = 1) (hc : v.cap = 1) (x : α) (f : Nat) :
    push can f v x = .loop := by
  induction f with
  | zero => rfl
  | succ f ih =>
    have hr : v.reserve can v.nextCap = v := by simp [Vec.reserve, Vec.nextCap, hc]
    simp only [push, hs, hc, ne_eq, not_true, if_false, hr, ih]
    rfl

example : (⟨[.live 1], 1, 1⟩ : Vec Nat).size = 1 ∧ (⟨[.live 1], 1, 1⟩ : Vec Nat).cap = 1 := ⟨rfl, rfl⟩

end Cost

namespace LL
variable {α : Type}

/-- The loop of `size()` needs one more round than there are elements. -/
theorem sizeLoop_short {m : Mem α} {o : Nat} {es : Entries α} {p : Ptr} (s : Seg m p es (.last o)) :
    ∀ f, f ≤ es.length → sizeLoop m o f (hd es (.last o)) = .loop := by
  induction es generalizing p with
  | nil => intro f hf; simp at hf; subst hf; rfl
  | cons e es ih =>
    intro f hf
    obtain ⟨s1, s2⟩ := s
    cases f with
    | zero => rfl
    | succ f =>
      have := ih s2 f (by simpa using hf)
      simp only [sizeLoop, hd_cons, load, s1, Res.ok_bind, this]
      rfl

/-- **C170 fails for lists.**  Inserting one value next to any element of a list of `n` elements walks the whole list: with fewer than `n + 1` rounds
of the counting loop the call has not returned, with more it has, wherever the place is.  (`size()` counts, and `insert` asks for
it.) -/
theorem C170_list_insert_violated {m : Mem α} {o : Nat} {A B : Entries α} (h : LInv m o (A ++ B)) (hne : A ++ B ≠ []) (x : α) (f : Nat) :
    (f ≤ (A ++ B).length → insert f m o (hd B (.last o)) x = .loop ∧ size f m o = .loop) ∧
    ((A ++ B).length < f → (∃ m', insert f m o (hd B (.last o)) x = .ok m' ∧ LInv m' o (A ++ (m.fresh, x) :: B)) ∧
      size f m o = .ok (A ++ B).length) := by
  refine ⟨fun hf => ?_, fun hf => ?_⟩
  · have : size f m o = .loop := by
      unfold size
      rw [h.head]
      obtain ⟨e, es, hes⟩ : ∃ e es, A ++ B = e :: es := by
        cases hab : A ++ B with
        | nil => exact absurd hab hne
        | cons e es => exact ⟨e, es, rfl⟩
      have := sizeLoop_short h.seg f hf
      rw [hes] at this ⊢
      exact this
    exact ⟨by unfold insert; rw [this]; rfl, this⟩
  · obtain ⟨m', e, hp⟩ := insert_ok h hne x hf
    exact ⟨⟨m', e, hp.inv⟩, size_ok h hne hf⟩

example : ∃ (m : Mem Nat) (es : Entries Nat), LInv m 0 ([] ++ es) ∧ es.length = 2 := by
  obtain ⟨m1, _, h1⟩ := pushBack_ok (construct_ok (emptyMem : Mem Nat) 0) 5
  obtain ⟨m2, _, h2⟩ := pushBack_ok h1.inv 6
  exact ⟨m2, _, h2.inv, rfl⟩

end LL
end Flame
