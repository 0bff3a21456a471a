import Verif.Net.CatchProps

/-!
# C149, exactly: which connections nobody is told about
-/

namespace Flame.Catch

/-- Specification: the connections nobody will be told about because of this call: the one accepted while the queue is full, and those waiting when `clear` is called. -/
def losing (s : Acc) : AOp → List Nat
  | .accept => if s.queue.length = s.cap then [s.next] else []
  | .clear => s.queue
  | _ => []

/-- All those of a history. -/
def losses (s : Acc) : List AOp → List Nat
  | [] => []
  | o :: os => losing s o ++ losses (s.step o) os

structure Shares (s : Acc) (lost : List Nat) : Prop where
  all : (s.given ++ s.queue ++ lost).Perm (List.range s.next)
  order : (s.given ++ s.queue).Pairwise (· < ·)

theorem perm_range_snoc {l : List Nat} {n : Nat} (h : l.Perm (List.range n)) : (l ++ [n]).Perm (List.range (n + 1)) := by
  rw [List.range_succ]
  exact h.append_right _

theorem Shares.lt {s : Acc} {lost : List Nat} (h : Shares s lost) {d : Nat} (hd : d ∈ s.given ++ s.queue) : d < s.next := by
  have := h.all.subset (List.mem_append_left lost hd)
  simpa using this

theorem shares_step {s : Acc} {lost : List Nat} (h : Shares s lost) (o : AOp) : Shares (s.step o) (lost ++ losing s o) := by
  cases o with
  | accept =>
    simp only [Acc.step, losing]
    by_cases hc : s.queue.length = s.cap
    · simp only [hc, if_true]
      refine ⟨?_, h.order⟩
      rw [← List.append_assoc]
      exact perm_range_snoc h.all
    · simp only [hc, if_false, List.append_nil]
      refine ⟨?_, ?_⟩
      · refine List.Perm.trans ?_ (perm_range_snoc h.all)
        simp only [List.append_assoc]
        refine List.Perm.append_left _ (List.Perm.append_left _ ?_)
        exact List.perm_append_comm
      · simp only
        rw [← List.append_assoc]
        refine List.pairwise_append.mpr ⟨h.order, by simp, ?_⟩
        intro a ha b hb
        simp only [List.mem_singleton] at hb
        subst hb
        exact h.lt ha
  | pop =>
    simp only [losing, List.append_nil, Acc.step]
    split
    · exact h
    · rename_i d q hq
      have ha := h.all
      have ho := h.order
      rw [hq] at ha ho
      exact ⟨by simpa using ha, by simpa using ho⟩
  | close d =>
    simp only [losing, List.append_nil, Acc.step]
    split
    · exact ⟨h.all, h.order⟩
    · exact h
  | clear =>
    simp only [losing, Acc.step]
    refine ⟨?_, ?_⟩
    · refine List.Perm.trans ?_ h.all
      simp only [List.append_nil, List.append_assoc]
      exact List.Perm.append_left _ List.perm_append_comm
    · simp only [List.append_nil]
      exact (List.pairwise_append.mp h.order).1

theorem shares_run {s : Acc} {lost : List Nat} (h : Shares s lost) (os : List AOp) : Shares (s.run os) (lost ++ losses s os) := by
  induction os generalizing s lost with
  | nil => simpa [Acc.run, losses] using h
  | cons o os ih =>
    have := ih (shares_step h o)
    simpa [Acc.run, losses, List.append_assoc] using this

theorem queue_le {s : Acc} (h : s.queue.length ≤ s.cap) (o : AOp) : (s.step o).queue.length ≤ (s.step o).cap := by
  cases o with
  | accept =>
    simp only [Acc.step]
    split
    · exact h
    · simp; omega
  | pop =>
    simp only [Acc.step]
    split
    · exact h
    · rename_i d q hq
      rw [hq] at h
      simp at h ⊢
      omega
  | close d => simp only [Acc.step]; split <;> exact h
  | clear => simp [Acc.step]

theorem room_iff {s : Acc} (h : s.queue.length ≤ s.cap) (os : List AOp) : s.Room os ↔ losses s os = [] := by
  induction os generalizing s with
  | nil => simp [Acc.Room, losses]
  | cons o os ih =>
    simp only [Acc.Room, losses, List.append_eq_nil_iff, ih (queue_le h o), ← and_assoc]
    refine and_congr_left fun _ => ?_
    cases o with
    | accept =>
      simp only [losing, forall_const, reduceCtorEq, false_imp_iff, and_true]
      by_cases hc : s.queue.length = s.cap
      · simp [hc]
      · simp only [hc, if_false, iff_true]; omega
    | pop => simp [losing]
    | close d => simp [losing]
    | clear => simp [losing]

end Flame.Catch

namespace Flame
open Catch CatchLemmas

/-- **C149, exactly.**  After every history: the accepted connections are, each in exactly one place, those given to the program, those in the queue and those lost — accepted while the queue
was full, or waiting when `clear` was called; those given and waiting are in the order of acceptance; a lost one is open and was never given; and every
connection was given or waits if and only if nothing was accepted with the queue full and nothing waited when `clear` was called. -/
theorem C149_lost_exact (cap : Nat) (os : List AOp) :
    let s := (Acc.init cap).run os
    let lost := losses (Acc.init cap) os
    (s.given ++ s.queue ++ lost).Perm (List.range s.next) ∧ (s.given ++ s.queue).Pairwise (· < ·) ∧
    (∀ d ∈ lost, d ∉ s.given ∧ d ∉ s.queue ∧ d ∉ s.closed) ∧
    (s.given ++ s.queue = List.range s.next ↔ lost = []) ∧ (lost = [] ↔ (Acc.init cap).Room os) := by
  have h := shares_run (s := Acc.init cap) (lost := []) ⟨by simp [Acc.init], by simp [Acc.init]⟩ os
  simp only [List.nil_append] at h
  have hi : AInv ((Acc.init cap).run os) := ainv_run (ainv_init cap) os
  refine ⟨h.all, h.order, fun d hd => ?_, ⟨fun e => ?_, fun e => ?_⟩, (room_iff (by simp [Acc.init]) os).symm⟩
  · have hn : ((((Acc.init cap).run os).given ++ ((Acc.init cap).run os).queue) ++ losses (Acc.init cap) os).Nodup :=
      h.all.nodup_iff.mpr List.nodup_range
    have hx := (List.nodup_append.mp hn).2.2
    have hg : d ∉ ((Acc.init cap).run os).given := fun hm => hx d (List.mem_append_left _ hm) d hd rfl
    exact ⟨hg, fun hm => hx d (List.mem_append_right _ hm) d hd rfl, fun hm => hg (hi.closed d hm)⟩
  · have := h.all.length_eq
    rw [List.length_append, e] at this
    exact List.eq_nil_of_length_eq_zero (by omega)
  · have := C149_handed_over_partial cap os ((room_iff (by simp [Acc.init]) os).mpr e)
    exact this

-- a queue of two: one connection comes too late, one waits when the registrar is cleared
example : losses (Acc.init 2) [.accept, .accept, .accept, .pop, .clear, .accept] = [2, 1] ∧
    ((Acc.init 2).run [.accept, .accept, .accept, .pop, .clear, .accept]).given = [0] ∧
    ((Acc.init 2).run [.accept, .accept, .accept, .pop, .clear, .accept]).queue = [3] := by decide

end Flame
