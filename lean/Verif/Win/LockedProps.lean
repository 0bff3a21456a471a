import Verif.Win.Locked

/-!
# C173: data protected by the library's spin lock on Windows

The specification is the one of C36 and C39: calls of several threads have the effect of the same calls one after the other.
-/

namespace Flame.WinLocked
open Flame.Own (upd upd_self upd_ne)
open Flame.Conc (Obj TS Event)
open WinSpin (UNLOCKED LOCKED)

variable {M L Op Ret : Type}

theorem run_append (obj : Obj M L Op Ret) {s s' : St M L Op Ret} {l : List (Nat × Option Op)} (k : List (Nat × Option Op))
    (h : run obj s l = .ok s') : run obj s (l ++ k) = run obj s' k := by
  induction l generalizing s with
  | nil => simp only [run, Res.ok.injEq] at h; subst h; rfl
  | cons p l ih =>
    obtain ⟨t, c⟩ := p
    simp only [run, List.cons_append] at h ⊢
    cases e : step obj s t c with
    | ok u => rw [e] at h; exact ih h
    | ub => rw [e] at h; cases h
    | loop => rw [e] at h; cases h

theorem upd_upd {α : Type} (f : Nat → α) (i : Nat) (a b : α) : upd (upd f i a) i b = upd f i b := by
  funext k
  by_cases h : k = i <;> simp [upd, h]

/-- `a` below `j`, `b` from there on. -/
def split {α : Type} (j : Nat) (a b : Nat → α) : Nat → α := fun t => if t < j then a t else b t

theorem split_lt {α : Type} {j t : Nat} {a b : Nat → α} (h : t < j) : split j a b t = a t := by simp [split, h]
theorem split_ge {α : Type} {j t : Nat} {a b : Nat → α} (h : j ≤ t) : split j a b t = b t := by simp [split, Nat.not_lt.mpr h]

theorem split_zero {α : Type} (a b : Nat → α) : split 0 a b = b := by
  funext t; simp [split]

theorem split_succ {α : Type} (j : Nat) (a b : Nat → α) : upd (split j a b) j (a j) = split (j + 1) a b := by
  funext t
  by_cases h : t = j
  · subst h; simp [split]
  · rw [upd_ne _ _ h]
    have : t < j + 1 ↔ t < j := by omega
    simp only [split, this]

theorem and_locked : (LOCKED &&& LOCKED : BitVec 32) = LOCKED := by decide
theorem unlocked_ne : ¬ (UNLOCKED = LOCKED) := by decide

/-- A thread at rest calls a method and is inside it after its own steps alone, whatever the value of the lock. -/
theorem enter_run (obj : Obj M L Op Ret) (s : St M L Op Ret) (t : Nat) (o : Op) (h1 : s.thr t = .idle) (h2 : s.spin.pc t = .idle) :
    ∃ k, run obj s ((t, some o) :: List.replicate k (t, none)) = .ok
      ⟨s.mem, ⟨LOCKED, upd s.spin.pc t .holds⟩, upd s.thr t (.inside o (obj.enter o)), s.hist ++ [.inv t o]⟩ := by
  by_cases hv : s.spin.value = LOCKED
  · refine ⟨1, ?_⟩
    simp only [List.replicate, run, step, h1, h2, WinSpin.step, upd_self, WinSpin.andStep, hv, if_true, and_locked, upd_upd]
  · refine ⟨3, ?_⟩
    simp only [List.replicate, run, step, h1, h2, WinSpin.step, upd_self, WinSpin.andStep, hv, if_false, and_locked, upd_upd, if_true,
      reduceCtorEq]

/-- All of the first `n` threads inside their methods, nothing read or written yet. -/
def allIn (obj : Obj M L Op Ret) (m : M) (o : Nat → Op) (n : Nat) (v : BitVec 32) : St M L Op Ret :=
  ⟨m, ⟨v, split n (fun _ => .holds) (fun _ => .idle)⟩, split n (fun t => .inside (o t) (obj.enter (o t))) (fun _ => .idle),
    (List.range n).map fun t => .inv t (o t)⟩

theorem all_in (obj : Obj M L Op Ret) (m : M) (o : Nat → Op) (n : Nat) :
    ∃ sched v, run obj (initial m) sched = .ok (allIn obj m o n v) := by
  induction n with
  | zero =>
    refine ⟨[], UNLOCKED, ?_⟩
    simp only [run, initial, allIn, split_zero, List.range_zero, List.map_nil, WinSpin.init]
  | succ n ih =>
    obtain ⟨sched, v, hr⟩ := ih
    obtain ⟨k, hk⟩ := enter_run obj (allIn obj m o n v) n (o n) (by simp [allIn, split]) (by simp [allIn, split])
    refine ⟨sched ++ (n, some (o n)) :: List.replicate k (n, none), LOCKED, ?_⟩
    rw [run_append obj _ hr, hk]
    simp only [allIn, List.range_succ, List.map_append, List.map_cons, List.map_nil, Res.ok.injEq, St.mk.injEq, WinSpin.St.mk.injEq, true_and,
      and_true]
    exact ⟨split_succ n _ _, split_succ n _ _⟩

/-- `a` at 0, `b` at 1, `d` elsewhere. -/
def two {α : Type} (d a b : α) : Nat → α := fun t => if t = 0 then a else if t = 1 then b else d

theorem two_zero {α : Type} (d a b : α) : two d a b 0 = a := rfl
theorem two_one {α : Type} (d a b : α) : two d a b 1 = b := rfl
theorem upd_two_zero {α : Type} (d a b c : α) : upd (two d a b) 0 c = two d c b := by
  funext t
  by_cases h : t = 0 <;> simp [upd, two, h]
theorem upd_two_one {α : Type} (d a b c : α) : upd (two d a b) 1 c = two d a c := by
  funext t
  by_cases h : t = 1 <;> simp [upd, two, h]

/-! ## Calls that do not overlap -/

/-- The body of a method, run alone: the members afterwards and the result. -/
def alone (obj : Obj M L Op Ret) : Nat → L → M → Res (M × Ret)
  | 0, _, _ => .loop
  | f + 1, l, m => match obj.body l m with
    | .ok (m', .inl l') => alone obj f l' m'
    | .ok (m', .inr r) => .ok (m', r)
    | .ub => .ub
    | .loop => .loop

/-- Nobody is calling. -/
def Quiet (s : St M L Op Ret) : Prop := s.spin = WinSpin.init ∧ ∀ t, s.thr t = .idle

theorem body_run (obj : Obj M L Op Ret) (t : Nat) (o : Op) : ∀ (f : Nat) (l : L) (s : St M L Op Ret) (m' : M) (r : Ret),
    s.thr t = .inside o l → alone obj f l s.mem = .ok (m', r) →
    ∃ k, run obj s (List.replicate k (t, none)) = .ok { s with mem := m', thr := upd s.thr t (.leaving o r) } := by
  intro f
  induction f with
  | zero => intro l s m' r _ h; cases h
  | succ f ih =>
    intro l s m' r ht h
    simp only [alone] at h
    cases hb : obj.body l s.mem with
    | ub => rw [hb] at h; cases h
    | loop => rw [hb] at h; cases h
    | ok p =>
      obtain ⟨m1, l1⟩ := p
      rw [hb] at h
      cases l1 with
      | inr r1 =>
        simp only [Res.ok.injEq, Prod.mk.injEq] at h
        obtain ⟨rfl, rfl⟩ := h
        exact ⟨1, by simp only [List.replicate, run, step, ht, hb]⟩
      | inl l2 =>
        obtain ⟨k, hk⟩ := ih l2 { s with mem := m1, thr := upd s.thr t (.inside o l2) } m' r (upd_self ..) h
        refine ⟨k + 1, ?_⟩
        simp only [List.replicate, run, step, ht, hb]
        rw [hk]
        simp only [upd_upd]

end Flame.WinLocked

namespace Flame
open Flame.Own (upd upd_self upd_ne)
open Conc (Obj TS Event)
open WinLocked

/-- **C173, no exclusion.** Whatever the class and the methods called, any number of threads can be inside the bodies of their methods at the same
time, each thinking that it holds the lock. -/
theorem C173_overlap_violated {M L Op Ret : Type} (obj : Obj M L Op Ret) (m : M) (o : Nat → Op) (n : Nat) :
    ∃ sched s, run obj (initial m) sched = .ok s ∧ s.mem = m ∧ (∀ t, t < n → s.thr t = .inside (o t) (obj.enter (o t))) ∧
      ∀ t, n ≤ t → s.thr t = .idle := by
  obtain ⟨sched, v, h⟩ := all_in obj m o n
  exact ⟨sched, _, h, rfl, fun t ht => by simp [allIn, split, ht], fun t ht => by simp [allIn, split, Nat.not_lt.mpr ht]⟩

/-- **C173, the counter** fails: any number of threads increment a fresh counter, each once, all calls return, and the counter is 1. -/
theorem C173_counter_violated (w : Nat) {n : Nat} (hn : n ≠ 0) :
    ∃ sched s, run (Conc.Counter.obj w) (initial 0) sched = .ok s ∧ (∀ t, s.thr t = .idle) ∧ s.mem = 1 % 2 ^ w ∧
      s.hist = ((List.range n).map fun t => .inv t .inc) ++ (List.range n).map fun t => .ret t none := by
  obtain ⟨sched, v, h⟩ := all_in (Conc.Counter.obj w) 0 (fun _ => .inc) n
  -- every thread loads
  have h2 : ∀ j, j ≤ n → ∃ sched, run (Conc.Counter.obj w) (initial 0) sched = .ok
      ⟨0, ⟨v, split n (fun _ => .holds) (fun _ => .idle)⟩,
        split j (fun _ => .inside .inc (.incStore 0)) (split n (fun _ => .inside .inc .incLoad) (fun _ => .idle)),
        (List.range n).map fun t => .inv t .inc⟩ := by
    intro j
    induction j with
    | zero => intro _; exact ⟨sched, by rw [h, split_zero]; rfl⟩
    | succ j ih =>
      intro hj
      obtain ⟨sched, hr⟩ := ih (by omega)
      refine ⟨sched ++ [(j, none)], ?_⟩
      rw [run_append _ _ hr]
      have ht : split j (fun _ => TS.inside Conc.Counter.Op.inc (Conc.Counter.L.incStore 0))
          (split n (fun _ => .inside .inc .incLoad) (fun _ => (TS.idle : TS Conc.Counter.L Conc.Counter.Op (Option Nat)))) j =
            .inside .inc .incLoad := by
        rw [split_ge (Nat.le_refl j), split_lt (by omega)]
      simp only [run, step, ht, Conc.Counter.obj]
      rw [split_succ]
  -- every thread stores, leaves and returns
  have h3 : ∀ j, j ≤ n → ∃ sched v, run (Conc.Counter.obj w) (initial 0) sched = .ok
      ⟨if j = 0 then 0 else 1 % 2 ^ w, ⟨v, split j (fun _ => .idle) (split n (fun _ => .holds) (fun _ => .idle))⟩,
        split j (fun _ => .idle) (split n (fun _ => .inside .inc (.incStore 0)) (fun _ => .idle)),
        ((List.range n).map fun t => .inv t .inc) ++ (List.range j).map fun t => .ret t none⟩ := by
    intro j
    induction j with
    | zero =>
      intro _
      obtain ⟨sched, hr⟩ := h2 n (Nat.le_refl n)
      refine ⟨sched, v, ?_⟩
      rw [hr]
      simp only [if_true, split_zero, List.range_zero, List.map_nil, List.append_nil, Res.ok.injEq, St.mk.injEq, and_true, true_and]
      funext t
      by_cases ht : t < n
      · rw [split_lt ht, split_lt ht]
      · rw [split_ge (by omega), split_ge (by omega), split_ge (by omega)]
    | succ j ih =>
      intro hj
      obtain ⟨sched, v, hr⟩ := ih (by omega)
      refine ⟨sched ++ [(j, none), (j, none), (j, none)], WinSpin.UNLOCKED, ?_⟩
      rw [run_append _ _ hr]
      have ht : split j (fun _ => (TS.idle : TS Conc.Counter.L Conc.Counter.Op (Option Nat)))
          (split n (fun _ => .inside .inc (.incStore 0)) (fun _ => .idle)) j = .inside .inc (.incStore 0) := by
        rw [split_ge (Nat.le_refl j), split_lt (by omega)]
      have hp : split j (fun _ => WinSpin.Pc.idle) (split n (fun _ => .holds) (fun _ => .idle)) j = .holds := by
        rw [split_ge (Nat.le_refl j), split_lt (by omega)]
      simp only [run, step, ht, Conc.Counter.obj, upd_self, WinSpin.step, hp, upd_upd, Res.ok.injEq, St.mk.injEq, WinSpin.St.mk.injEq, true_and,
        List.range_succ, List.map_append, List.map_cons, List.map_nil, List.append_assoc, and_true]
      refine ⟨?_, split_succ j _ _, split_succ j _ _⟩
      rw [if_neg (by omega)]
  obtain ⟨sched, v, hr⟩ := h3 n (Nat.le_refl n)
  refine ⟨sched, _, hr, ?_, ?_, rfl⟩
  · intro t
    by_cases ht : t < n
    · simp [split, ht]
    · simp [split, ht]
  · exact if_neg hn

/-- **C173, what holds.** Calls that do not overlap do what the body of the method does: from a quiet state thread `t` alone completes its call, gets
the result and leaves the object quiet. -/
theorem C173_one_at_a_time {M L Op Ret : Type} (obj : Obj M L Op Ret) (s : St M L Op Ret) (hq : Quiet s) (t : Nat) (o : Op) {f : Nat} {m' : M}
    {r : Ret} (h : alone obj f (obj.enter o) s.mem = .ok (m', r)) :
    ∃ k s', run obj s ((t, some o) :: List.replicate k (t, none)) = .ok s' ∧ Quiet s' ∧ s'.mem = m' ∧
      s'.hist = s.hist ++ [.inv t o, .ret t r] := by
  obtain ⟨hs, ht⟩ := hq
  obtain ⟨k1, h1⟩ := enter_run obj s t o (ht t) (by rw [hs]; rfl)
  obtain ⟨k2, h2⟩ := body_run obj t o f (obj.enter o)
    ⟨s.mem, ⟨WinSpin.LOCKED, upd s.spin.pc t .holds⟩, upd s.thr t (.inside o (obj.enter o)), s.hist ++ [.inv t o]⟩ m' r (upd_self ..) h
  refine ⟨k1 + (k2 + 2), ⟨m', WinSpin.init, s.thr, s.hist ++ [.inv t o, .ret t r]⟩, ?_, ⟨rfl, ht⟩, rfl, rfl⟩
  rw [← List.replicate_append_replicate, ← List.replicate_append_replicate, ← List.cons_append, run_append obj _ h1, run_append obj _ h2]
  simp only [List.replicate, run, step, upd_self, WinSpin.step, upd_upd, List.append_assoc, List.cons_append, List.nil_append, Res.ok.injEq,
    St.mk.injEq, true_and, and_true, hs, WinSpin.init]
  refine ⟨?_, ?_⟩
  · congr 1
    funext u
    by_cases hu : u = t <;> simp [upd, hu]
  · funext u
    by_cases hu : u = t
    · subst hu; rw [upd_self, ht]
    · rw [upd_ne _ _ hu]

/-- **C173, the event queue** fails: two threads push different values at the same time; both calls return `true`, the queue counts two
elements — even if it has room for one only — and one of the values is nowhere in it. -/
theorem C173_queue_violated {V : Type} {n : Nat} (hn : n ≠ 0) (iv v w : V) (hv : v ≠ iv) (hw : v ≠ w) :
    ∃ sched s, run (Conc.Queue.obj n) (initial (Conc.Queue.Q.inited n iv)) sched = .ok s ∧ (∀ t, s.thr t = .idle) ∧ s.mem.count = 2 ∧
      s.hist = [.inv 0 (.push v), .inv 1 (.push w), .ret 0 (.bool true), .ret 1 (.bool true)] ∧ ∃ b, s.mem.buf = some b ∧ v ∉ b := by
  obtain ⟨sched, x, h⟩ := all_in (Conc.Queue.obj n) (Conc.Queue.Q.inited n iv) (fun t => if t = 0 then .push v else .push w) 2
  have hn' : ¬ (0 = n) := fun e => hn e.symm
  have hp : 0 < n := by omega
  have e : allIn (Conc.Queue.obj n) (Conc.Queue.Q.inited n iv) (fun t => if t = 0 then .push v else .push w) 2 x =
      ⟨Conc.Queue.Q.inited n iv, ⟨x, two .idle .holds .holds⟩, two .idle (.inside (.push v) (.pushTest v)) (.inside (.push w) (.pushTest w)),
        [.inv 0 (.push v), .inv 1 (.push w)]⟩ := by
    simp only [allIn, St.mk.injEq, WinSpin.St.mk.injEq, true_and]
    refine ⟨?_, ?_, rfl⟩
    · funext t
      match t with
      | 0 => rfl
      | 1 => rfl
      | t + 2 => simp [split, two]
    · funext t
      match t with
      | 0 => rfl
      | 1 => rfl
      | t + 2 => simp [split, two]
  rw [e] at h
  have hr : run (Conc.Queue.obj n) (initial (Conc.Queue.Q.inited n iv)) (sched ++ [(0, none), (1, none), (0, none), (1, none), (0, none), (1, none),
      (0, none), (1, none), (0, none), (1, none), (0, none), (1, none)]) = .ok
      ⟨⟨some (((List.replicate n iv).set 0 v).set 0 w), 0, Conc.Queue.advance n (Conc.Queue.advance n 0), 2⟩,
        ⟨WinSpin.UNLOCKED, two .idle .idle .idle⟩, two .idle .idle .idle,
        [.inv 0 (.push v), .inv 1 (.push w), .ret 0 (.bool true), .ret 1 (.bool true)]⟩ := by
    rw [run_append _ _ h]
    simp only [run, step, two_zero, two_one, upd_two_zero, upd_two_one, Conc.Queue.obj, Conc.Queue.Q.inited, hn', hp, WinSpin.step,
      List.length_replicate, List.length_set, if_true, if_false, List.cons_append, List.nil_append, Nat.zero_add, Nat.reduceAdd]
  refine ⟨_, _, hr, ?_, rfl, rfl, _, rfl, ?_⟩
  · intro t
    show two _ _ _ t = _
    unfold two
    simp only [ite_self]
  · intro hm
    rw [List.set_set] at hm
    rcases List.mem_or_eq_of_mem_set hm with hm | hm
    · exact hv (List.eq_of_mem_replicate hm)
    · exact hw hm

example : (1 : Nat) ≠ 0 ∧ (7 : Int) ≠ -1 ∧ (7 : Int) ≠ 8 := by decide

/-- A quiet counter over the Windows lock and a method that returns. -/
example : Quiet (initial 5 : St Nat Conc.Counter.L Conc.Counter.Op (Option Nat)) ∧
    alone (Conc.Counter.obj 8) 2 ((Conc.Counter.obj 8).enter .inc) 5 = .ok (6, none) :=
  ⟨⟨rfl, fun _ => rfl⟩, rfl⟩

namespace Flame
open WinLocked
example := C173_counter_violated 8 (n := 3) (by decide)
example := C173_one_at_a_time (Conc.Counter.obj 8) (initial 5) ⟨rfl, fun _ => rfl⟩ 3 .inc (f := 2) rfl
end Flame

end Flame
