import Verif.Vector.Throw
import Verif.List.Lemmas4

/-! # C169 for the list's range insertion (include/FlameIDE/Templates/List.hpp 782-842) -/

namespace Flame
namespace LL
open Thr
variable {α : Type}

/-- List.hpp 793-810 after the first node, when the element's operations succeed `k` more times: each round copies the value (outside any
`noexcept`) and constructs the node from the copy (`allocator.construct`, ObjectAllocator.hpp 80-115, is `noexcept`). -/
def chainT : Nat → Mem α → Ptr → List α → Out (Mem α × Ptr)
  | _, m, pt, [] => .done (m, pt)
  | 0, m, pt, _ :: _ => .threw (m, pt)
  | 1, _, _, _ :: _ => .died
  | k + 2, m, pt, x :: xs =>
    match setNext (alloc m x) pt (.node m.fresh) with
    | .ok m1 =>
      match setPrev m1 (.node m.fresh) pt with
      | .ok m2 => chainT k m2 (.node m.fresh) xs
      | .ub => .ub
      | .loop => .loop
    | .ub => .ub
    | .loop => .loop

/-- List.hpp 782-842 for a range outside every list, when the element's operations succeed `k` more times. -/
def listInsertRange (k fuel : Nat) (m : Mem α) (o : Nat) (it : Ptr) : List α → Out (Mem α)
  | [] => .done m
  | x :: xs =>
    match k with
    | 0 => .threw m
    | 1 => .died
    | k + 2 =>
      match chainT k (alloc m x) (.node m.fresh) xs with
      | .done (m', pt) =>
        match splice fuel m' o it (.node m.fresh) pt with
        | .ok m'' => .done m''
        | .ub => .ub
        | .loop => .loop
      | .threw (m', _) => .threw m'
      | .died => .died
      | .ub => .ub
      | .loop => .loop

theorem chainT_ok (xs : List α) : ∀ {k : Nat} {m : Mem α} {pt : Ptr} {r : Mem α × Ptr},
    chainLoop m pt (xs.take (k / 2)) = .ok r →
    (xs.length ≤ k / 2 → chainT k m pt xs = .done r) ∧
    (k / 2 < xs.length → chainT k m pt xs = if k % 2 = 0 then .threw r else .died) := by
  induction xs with
  | nil =>
    intro k m pt r e
    simp [chainLoop] at e; subst e
    exact ⟨fun _ => by cases k <;> rfl, fun h => by simp at h⟩
  | cons x xs ih =>
    intro k m pt r e
    match k with
    | 0 =>
      simp [chainLoop] at e; subst e
      exact ⟨fun h => by simp at h, fun _ => rfl⟩
    | 1 => exact ⟨fun h => by simp at h, fun _ => rfl⟩
    | k + 2 =>
      rw [show (k + 2) / 2 = k / 2 + 1 by omega, List.take_succ_cons] at e
      simp only [chainLoop] at e
      cases h1 : setNext (alloc m x) pt (.node m.fresh) <;> rw [h1] at e <;> simp at e
      rename_i m1
      cases h2 : setPrev m1 (.node m.fresh) pt <;> rw [h2] at e <;> simp at e
      rename_i m2
      have := ih e
      simp only [chainT, h1, h2, List.length_cons]
      rw [show (k + 2) / 2 = k / 2 + 1 by omega, show (k + 2) % 2 = k % 2 by omega]
      exact ⟨fun h => this.1 (by omega), fun h => this.2 (by omega)⟩

/-- **Violated for the list's range insertion.**  An exception thrown while the `j`-th value (counted from 0) is copied leaves the list
exactly as it was, but the `j` nodes built so far exist in memory, belong to no list and are never released. -/
theorem C169_list_range_violated {m : Mem α} {o : Nat} {es : Entries α} (h : LInv m o es) (it : Ptr) (xs : List α) (fuel : Nat) {j : Nat}
    (hj : j < xs.length) :
    listInsertRange (2 * j + 1) fuel m o it xs = .died ∧
    ∃ m', listInsertRange (2 * j) fuel m o it xs = .threw m' ∧ LInv m' o es ∧ m'.fresh = m.fresh + j ∧
      (∀ q, (∀ n, m.fresh ≤ n → n < m.fresh + j → q ≠ .node n) → m'.cell q = m.cell q) ∧
      (∀ i, (hi : i < j) → m.fresh + i ∉ addrs es ∧ ∃ c, m'.cell (.node (m.fresh + i)) = some c ∧ c.val = xs[i]?) := by
  cases xs with
  | nil => simp at hj
  | cons x xs =>
    cases j with
    | zero => exact ⟨rfl, m, rfl, h, rfl, fun _ _ => rfl, fun i hi => by omega⟩
    | succ j =>
      simp only [List.length_cons] at hj
      obtain ⟨m', e1, e2, e3, e4, e5, e6⟩ := chainLoop_ok (xs.take j) (m := alloc m x) (k := m.fresh) (a := x) (p := .null)
        (by simp [alloc]) (by simp [alloc])
      have hfr : (alloc m x).fresh = m.fresh + 1 := rfl
      have hT : ∀ k, k / 2 = j → chainT k (alloc m x) (.node m.fresh) xs =
          if k % 2 = 0 then .threw (m', lst (.node m.fresh) (number (alloc m x).fresh (xs.take j))) else .died := by
        intro k hk
        exact (chainT_ok xs (k := k) (by rw [hk]; exact e1)).2 (by omega)
      have hnum : ∀ (ys : List α) (k n : Nat), n ∈ addrs (number k ys) → k ≤ n ∧ n < k + ys.length := by
        intro ys
        induction ys with
        | nil => intro k n hn; simp [number] at hn
        | cons y ys ih =>
          intro k n hn
          simp only [number, addrs_cons, List.mem_cons] at hn
          rcases hn with rfl | hn
          · simp
          · have := ih (k + 1) n hn
            simp only [List.length_cons]; omega
      have hcell : ∀ q, (∀ n, m.fresh ≤ n → n < m.fresh + (j + 1) → q ≠ .node n) → m'.cell q = m.cell q := by
        intro q hq
        rw [e6 q (hq m.fresh (Nat.le_refl _) (by omega)) fun n hn => ?_]
        · simp [alloc, hq m.fresh (Nat.le_refl _) (by omega)]
        · have := hnum _ _ n hn
          rw [hfr, List.length_take] at this
          exact hq n (by omega) (by omega)
      have hseg : ∀ (ys : List α) (k : Nat) (p : Ptr), Seg m' p (number k ys) .null → ∀ i, (hi : i < ys.length) →
          ∃ c, m'.cell (.node (k + i)) = some c ∧ c.val = ys[i]? := by
        intro ys
        induction ys with
        | nil => intro k p _ i hi; simp at hi
        | cons y ys ih =>
          intro k p hs i hi
          obtain ⟨hs1, hs2⟩ := hs
          cases i with
          | zero => exact ⟨_, hs1, rfl⟩
          | succ i =>
            have := ih (k + 1) _ hs2 i (by simp at hi; omega)
            rw [show k + 1 + i = k + (i + 1) by omega] at this
            simpa using this
      refine ⟨?_, m', ?_, ?_, ?_, hcell, fun i hi => ⟨?_, ?_⟩⟩
      · rw [show 2 * (j + 1) + 1 = (2 * j + 1) + 2 by omega]
        simp only [listInsertRange]
        rw [hT (2 * j + 1) (by omega), if_neg (by omega)]
      · rw [show 2 * (j + 1) = (2 * j) + 2 by omega]
        simp only [listInsertRange]
        rw [hT (2 * j) (by omega), if_pos (by omega)]
      · refine ⟨?_, ?_, ?_, ?_, seg_frame (fun e he => ?_) h.seg, h.nodup, fun n hn => ?_, ?_⟩
        · rw [hcell _ (by simp)]; exact h.first
        · rw [hcell _ (by simp)]; exact h.last
        · rw [e4]; exact h.head
        · rw [e5]; exact h.tail
        · refine hcell _ fun n hn _ hh => ?_
          injection hh with hh
          have := h.lt e.1 (mem_addrs he); omega
        · have := h.lt n hn; rw [e3, hfr]; omega
        · have := h.len; rw [e3, hfr]; omega
      · rw [e3, hfr, List.length_take]; omega
      · intro hin; have := h.lt _ hin; omega
      · cases i with
        | zero =>
          obtain ⟨hs1, _⟩ := e2
          exact ⟨_, hs1, rfl⟩
        | succ i =>
          obtain ⟨c, hc1, hc2⟩ := hseg (xs.take j) _ _ e2.2 i (by simp; omega)
          refine ⟨c, ?_, ?_⟩
          · rw [← hc1, hfr]; congr 2; omega
          · rw [hc2]; simp [List.getElem?_take, show i < j by omega]

/-- The nodes left behind survive the list: destroying it afterwards releases its own nodes only. -/
theorem C169_list_range_leaks {m : Mem α} {o : Nat} {es : Entries α} (h : LInv m o es) (it : Ptr) (xs : List α) (fuel : Nat) {j f : Nat}
    (hj : j < xs.length) (hf : es.length < f) :
    ∃ m' m'', listInsertRange (2 * j) fuel m o it xs = .threw m' ∧ clean f m' o = .ok m'' ∧
      (∀ n ∈ addrs es, m''.cell (.node n) = none) ∧ ∀ i, i < j → (m''.cell (.node (m.fresh + i))).isSome = true := by
  obtain ⟨_, m', h1, h2, _, _, h5⟩ := C169_list_range_violated h it xs fuel hj
  obtain ⟨m'', e, hp⟩ := clean_ok h2 hf
  refine ⟨m', m'', h1, e, fun n hn => hp.freed n hn (by simp), fun i hi => ?_⟩
  obtain ⟨hni, c, hc, _⟩ := h5 i hi
  rw [hp.frame _ (by simp) (by simp) (fun n hn hh => ?_) (by simp), hc]
  · rfl
  · injection hh with hh
    exact hni (hh ▸ hn)

example : ∃ m : Mem Nat, LInv m 0 [] ∧ (∃ m', listInsertRange 4 5 m 0 (.last 0) [7, 8, 9] = .threw m' ∧ (m'.cell (.node m.fresh)).isSome) :=
  ⟨construct emptyMem 0, construct_ok _ _, by
    obtain ⟨_, m', h, _, _, _, hc⟩ := C169_list_range_violated (construct_ok (emptyMem : Mem Nat) 0) (.last 0) [7, 8, 9] 5 (j := 2) (by decide)
    obtain ⟨_, c, hc1, _⟩ := hc 0 (by decide)
    exact ⟨m', h, by rw [show (construct (emptyMem : Mem Nat) 0).fresh = (construct (emptyMem : Mem Nat) 0).fresh + 0 from rfl, hc1]; rfl⟩⟩

end LL
end Flame
