import Verif.Conc.RegistrarProps

/-!
# C37 — what a late `init` does to a queue that holds events

`Registrar::add` (Registrar.cpp 22-60) tests the queue and initialises it in two critical sections, so a second thread's `init`
(QueuedArray.hpp 57-73) may run on a queue in which events are waiting.  `init` resets the positions but not `count`.
-/

namespace Flame
open Conc Conc.Queue

namespace LateInit
open QueueLemmas
variable {V : Type}

/-- The calls one after the other, each run to its end. -/
def calls (n : Nat) : Q V → List (Queue.Op V) → Res (Q V × List (Queue.Ret V))
  | q, [] => .ok (q, [])
  | q, o :: os => match (Queue.obj n).exec 8 ((Queue.obj n).enter o) q with
    | .ok (q', r) => match calls n q' os with
      | .ok (q'', rs) => .ok (q'', r :: rs)
      | .ub => .ub
      | .loop => .loop
    | .ub => .ub
    | .loop => .loop

theorem calls_append {n : Nat} {q q' q'' : Q V} {a b : List (Queue.Op V)} {ra rb : List (Queue.Ret V)} (h1 : calls n q a = .ok (q', ra))
    (h2 : calls n q' b = .ok (q'', rb)) : calls n q (a ++ b) = .ok (q'', ra ++ rb) := by
  induction a generalizing q ra with
  | nil => simp only [calls] at h1; cases h1; simpa using h2
  | cons o a ih =>
    simp only [List.cons_append, calls] at h1 ⊢
    split at h1
    · rename_i q1 r e
      split at h1
      · rename_i q2 rs e2
        cases h1
        simp only [e, ih e2]
        rfl
      · cases h1
      · cases h1
    · cases h1
    · cases h1

theorem exec_push {n : Nat} {b : List V} {f j c : Nat} (hb : b.length = n) (hj : j < n) (hc : c < n) (v : V) :
    (Queue.obj n).exec 8 ((Queue.obj n).enter (.push v)) ⟨some b, f, j, c⟩ = .ok (⟨some (b.set j v), f, (j + 1) % n, c + 1⟩, .bool true) := by
  have h1 : ¬ c = n := by omega
  have h2 : j < b.length := by omega
  simp [Obj.exec, Queue.obj, h1, h2, advance_eq hj]

theorem exec_pop {n : Nat} {b : List V} {f j c : Nat} {v : V} (hf : f < n) (hv : b[f]? = some v) (iv : V) :
    (Queue.obj n).exec 8 ((Queue.obj n).enter (.pop iv)) ⟨some b, f, j, c + 1⟩ = .ok (⟨some (b.set f iv), (f + 1) % n, j, c⟩, .value v) := by
  simp [Obj.exec, Queue.obj, hv, advance_eq hf]

theorem pushes {n f : Nat} (vs : List V) : ∀ {a b : List V} {c : Nat}, a.length + b.length = n → vs.length ≤ b.length → c + vs.length ≤ n →
    0 < n → ∃ j, calls n ⟨some (a ++ b), f, a.length % n, c⟩ (vs.map .push) =
      .ok (⟨some (a ++ vs ++ b.drop vs.length), f, j, c + vs.length⟩, List.replicate vs.length (.bool true)) := by
  induction vs with
  | nil => intro a b c _ _ _ _; exact ⟨a.length % n, by simp [calls]⟩
  | cons v vs ih =>
    intro a b c hl hv hc hn
    cases b with
    | nil => simp at hv
    | cons x b =>
      have ha : a.length < n := by simp at hl; omega
      obtain ⟨j, hj⟩ := ih (a := a ++ [v]) (b := b) (c := c + 1) (by simp at hl ⊢; omega) (by simpa using hv) (by simp at hc; omega) hn
      refine ⟨j, ?_⟩
      have e := exec_push (f := f) (c := c) (n := n) (b := a ++ x :: b) (j := a.length) (by simpa using hl) ha (by simp at hc; omega) v
      have e2 : (a ++ x :: b).set a.length v = (a ++ [v]) ++ b := by simp
      rw [e2] at e
      simp only [List.map_cons, calls, Nat.mod_eq_of_lt ha, e]
      rw [List.length_append, List.length_singleton] at hj
      rw [hj]
      simp [List.replicate_succ]
      omega

theorem pops {n j : Nat} (iv : V) (d : List V) : ∀ {a b : List V}, a.length + d.length + b.length = n → 0 < n →
    ∃ q, calls n ⟨some (a ++ d ++ b), a.length % n, j, d.length⟩ (List.replicate d.length (.pop iv)) = .ok (q, d.map .value) ∧ q.count = 0 := by
  induction d with
  | nil => intro a b _ _; exact ⟨⟨some (a ++ [] ++ b), a.length % n, j, 0⟩, rfl, rfl⟩
  | cons v d ih =>
    intro a b hl hn
    have ha : a.length < n := by simp at hl; omega
    obtain ⟨q, hq, h0⟩ := ih (a := a ++ [iv]) (b := b) (by simp at hl ⊢; omega) hn
    refine ⟨q, ?_, h0⟩
    have e := exec_pop (n := n) (b := a ++ v :: d ++ b) (f := a.length) (j := j) (c := d.length) (v := v) ha (by simp) iv
    have e2 : (a ++ v :: d ++ b).set a.length iv = (a ++ [iv]) ++ d ++ b := by simp
    rw [e2] at e
    rw [List.length_append, List.length_singleton] at hq
    simp only [List.length_cons, List.replicate_succ, calls, Nat.mod_eq_of_lt ha, e, hq, List.map_cons]

end LateInit

open LateInit QueueLemmas

/-- C37: whatever a queue holds, after a late `init` none of it is ever delivered.  The events that come afterwards are delivered first, and
then as many invalid values as there were events. -/
theorem C37_late_init_loses {V : Type} {n : Nat} {q : Q V} (h : Ok n q) (iv : V) (vs : List V) (hr : q.count + vs.length ≤ n) :
    ∃ q', LateInit.calls n q (.init iv :: vs.map .push ++ List.replicate (q.count + vs.length) (.pop iv)) =
      .ok (q', .bool true :: List.replicate vs.length (.bool true) ++ (vs ++ List.replicate q.count iv).map .value) ∧ q'.count = 0 := by
  have hn := h.pos
  have e : (Queue.obj n).exec 8 ((Queue.obj n).enter (.init iv)) q = .ok (⟨some (List.replicate n iv), 0, 0, q.count⟩, .bool true) := by
    simp [Obj.exec, Queue.obj]
  obtain ⟨j, hp⟩ := pushes (n := n) (f := 0) vs (a := []) (b := List.replicate n iv) (c := q.count) (by simp) (by simp; omega) hr hn
  have hd : (List.replicate n iv).drop vs.length = List.replicate q.count iv ++ List.replicate (n - vs.length - q.count) iv := by
    rw [List.drop_replicate, List.replicate_append_replicate]
    congr 1
    omega
  rw [hd] at hp
  obtain ⟨q', hq, h0⟩ := pops (n := n) (j := j) iv (vs ++ List.replicate q.count iv) (a := [])
    (b := List.replicate (n - vs.length - q.count) iv) (by simp; omega) hn
  refine ⟨q', ?_, h0⟩
  simp only [List.nil_append, List.length_nil, Nat.zero_mod, List.append_assoc, List.length_append, List.length_replicate] at hp hq
  rw [Nat.add_comm q.count] at hp ⊢
  have := calls_append hp hq
  rw [List.cons_append]
  simp only [LateInit.calls, e, this]
  rfl

/-- Two events waiting, then a late `init`, then one more event. -/
example : Ok 4 (⟨some [-1, 5, 6, -1], 1, 3, 2⟩ : Q Int) ∧
    (LateInit.calls 4 (⟨some [-1, 5, 6, -1], 1, 3, 2⟩ : Q Int) [.init (-1), .push 7, .pop (-1), .pop (-1), .pop (-1), .pop (-1)] matches
      .ok (_, [.bool true, .bool true, .value 7, .value (-1), .value (-1), .bool false])) :=
  ⟨⟨by decide, ⟨_, rfl, rfl⟩, by decide, by decide, by decide⟩, by decide⟩

end Flame
