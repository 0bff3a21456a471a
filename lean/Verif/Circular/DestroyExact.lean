import Verif.Circular.Props

/-!
# C60, exactly: which circular arrays can be destroyed
-/

namespace Flame
open CArr

theorem CArr.capacity_eq {α : Type u} {c c' : CArr α} (h : c'.buf.length = c.buf.length) : c'.capacity = c.capacity := by
  unfold capacity; rw [h]

/-- Histories keep the count of the inner vector and leave no element outside the queue. -/
theorem CArr.history_own {α : Type u} (ops : List (QSpec.Op α)) : ∀ {c : CArr α} {l : List α}, Rep c l → NoStray c l →
    QSpec.CleansOnlyEmpty c.capacity l ops →
    ∃ c' l', runOps (CArr.step false) c ops = .ok c' ∧ Rep c' l' ∧ NoStray c' l' ∧ c'.own = c.own ∧ c'.buf.length = c.buf.length := by
  induction ops with
  | nil => intro c l r ns _; exact ⟨c, l, rfl, r, ns, rfl, rfl⟩
  | cons o os ih =>
    intro c l r ns hcl
    obtain ⟨c1, h1, h2, h3⟩ := C09_step (triv := false) r o (Or.inr hcl.1)
    have h4 : c1.own = c.own ∧ NoStray c1 (QSpec.apply c.capacity l o) := by
      by_cases ho : o = .clean
      · have hl := hcl.1 ho
        subst ho hl
        have hc := (clean_ok r (triv := false) (Or.inr rfl)).1
        have e : c.step false .clean = c.clean false := rfl
        rw [e, hc] at h1
        cases h1
        exact ⟨rfl, fun p hp _ => ns p hp (by simp)⟩
      · exact own_preserved r ns ho h1
    have hcap := capacity_eq h2
    obtain ⟨c', l', a, b, d, e, g⟩ := ih h3 h4.2 (by rw [hcap]; exact hcl.2)
    exact ⟨c', l', by rw [runOps_cons_ok h1]; exact a, b, d, by rw [e, h4.1], by rw [g, h2]⟩

/-- The destructor of an array in use: the elements of the queue are destroyed; then the inner vector destroys as many cells as it believes to hold. -/
theorem CArr.destruct_eq {α : Type u} {c : CArr α} {l : List α} (r : Rep c l) (ns : NoStray c l) :
    c.destruct false = if c.own = 0 then .ok (List.replicate c.buf.length .raw) else .ub := by
  obtain ⟨b', d1, d2, d3, d4⟩ := destroyWalk_rep false r
  have hb : b' = List.replicate c.buf.length .raw := by
    apply List.ext_getElem?
    intro p
    by_cases hp : p < c.buf.length
    · rw [List.getElem?_replicate, if_pos hp]
      by_cases hin : ∃ j, j < l.length ∧ p = slot c.buf.length c.head j
      · obtain ⟨j, hj, rfl⟩ := hin; exact d3 j hj
      · have hout : ∀ j, j < l.length → p ≠ slot c.buf.length c.head j := fun j hj he => hin ⟨j, hj, he⟩
        rw [d4 p hp hout]; exact ns p hp hout
    · rw [List.getElem?_replicate, if_neg hp]; exact List.getElem?_eq_none (by omega)
  have hpos := r.pos
  unfold destruct
  rw [d1]
  simp only
  subst hb
  by_cases h0 : c.own = 0
  · rw [if_pos h0, h0]; rfl
  · rw [if_neg h0]
    obtain ⟨m, hm⟩ : ∃ m, c.own = m + 1 := ⟨c.own - 1, by omega⟩
    have hg : (List.replicate c.buf.length (Cell.raw (α := α)))[0]? = some .raw := by
      rw [List.getElem?_replicate, if_pos hpos]
    simp only [hm, Cells.destroyRange, Cells.destroy, hg]
    rfl

/-- **C60, exactly.**  A fresh array, used in any way a class with a destructor allows (`clean` only when empty), destroys at its end every element
exactly once, and none is left.  An array made by the move constructor, or by the copy constructor where that works, from one that held `l`, and then used
in any such way, can be destroyed exactly if `l` was empty: pushing and popping afterwards, even emptying it, does not help. -/
theorem C60_exact {α : Type u} (N : Nat) (ops : List (QSpec.Op α)) :
    (QSpec.CleansOnlyEmpty N [] ops →
      ∃ c, runOps (CArr.step false) (CArr.empty N) ops = .ok c ∧ c.destruct false = .ok (List.replicate (N + 1) .raw)) ∧
    (∀ (c c0 : CArr α) (l : List α), Rep c l → (c.moveCtor = .ok c0 ∨ (c.head = 0 ∧ c.copy = .ok c0)) → QSpec.CleansOnlyEmpty c.capacity l ops →
      ∃ c1, runOps (CArr.step false) c0 ops = .ok c1 ∧ (l = [] → c1.destruct false = .ok (List.replicate c.buf.length .raw)) ∧
        (l ≠ [] → c1.destruct false = .ub)) := by
  constructor
  · intro hcl
    have e : (CArr.empty N : CArr α).capacity = N := by simp [CArr.empty, capacity]
    obtain ⟨c, l, a, r, ns, ho, hb⟩ := history_own ops (rep_empty N) (noStray_empty N) (by rw [e]; exact hcl)
    refine ⟨c, a, ?_⟩
    rw [destruct_eq r ns, if_pos (by rw [ho]; rfl), hb]
    simp [CArr.empty]
  · intro c c0 l r hm hcl
    have hlen := r.len
    obtain ⟨b', h1, h2, h3, h4⟩ := constructList_ok (b := List.replicate c.buf.length (Cell.raw (α := α))) (xs := l) (k := 0)
      (by simp; omega)
    have hc0 : c0 = ⟨b', 0, l.length, l.length⟩ := by
      rcases hm with hm | ⟨h0, hm⟩
      · unfold moveCtor place at hm; rw [toList_ok r] at hm; simp only [h1, size_eq r] at hm
        cases hm; rfl
      · unfold copy place at hm; rw [(C10_const_view_partial r h0).1] at hm; simp only [h1, size_eq r] at hm
        cases hm; rfl
    subst hc0
    have hb : b'.length = c.buf.length := by simpa using h2
    have r0 : Rep ⟨b', 0, l.length, l.length⟩ l := rep_of_place (b := List.replicate c.buf.length .raw) (by simpa using hlen) h2 h3
    have ns0 : NoStray ⟨b', 0, l.length, l.length⟩ l := by
      intro p hp ho
      simp only [hb] at hp ho ⊢
      by_cases hpl : p < l.length
      · refine absurd ?_ (ho p hpl)
        unfold slot; rw [if_pos (by omega)]; omega
      · rw [h4 p (Or.inr (by omega)), List.getElem?_replicate, if_pos hp]
    obtain ⟨c1, l1, a, r1, ns1, ho, hb1⟩ := history_own ops r0 ns0 (by
      rw [show (⟨b', 0, l.length, l.length⟩ : CArr α).capacity = c.capacity from capacity_eq hb]; exact hcl)
    simp only [hb] at hb1 ho
    refine ⟨c1, a, fun hl => ?_, fun hl => ?_⟩
    · rw [destruct_eq r1 ns1, if_pos (by rw [ho, hl]; rfl), hb1]
    · rw [destruct_eq r1 ns1, if_neg (by rw [ho]; simpa using hl)]

example := (C60_exact 2 [.push 4, .pop, .clean, .push (5 : Nat)]).1 (by simp [QSpec.CleansOnlyEmpty, QSpec.apply])
example : ∃ c c0 : CArr Nat, pushBack (CArr.empty 2) 7 = .ok c ∧ c.moveCtor = .ok c0 ∧ QSpec.CleansOnlyEmpty c.capacity [7] [.pop, .clean] :=
  ⟨_, _, rfl, rfl, by simp [QSpec.CleansOnlyEmpty, QSpec.apply]⟩

end Flame
