import Verif.Own.Book
import Verif.Own.ThreadProps

/-!
# C71, exactly: which histories of thread objects are defined, and which threads they lose

Unlike `C71_thread_partial`, nothing is assumed about the histories: they may join by hand, run twice, assign over running threads and fail to start threads.
-/

namespace Flame.ThreadSpec
open Flame.Own Flame.Own.Thread

/-- Specification: the call is defined.  The objects must be declared; an object may be joined if its thread still runs, and destroyed if it never ran or its
thread still runs; no object may be detached or move constructed. -/
def Defined (s : St) : Op → Prop
  | .create i => s.vars i = none
  | .moveCtor _ _ | .detach _ => False
  | .moveAssign i j => s.vars i ≠ none ∧ s.vars j ≠ none
  | .run i | .runFail i _ => s.vars i ≠ none
  | .join i => ∃ r, owner s i = some r ∧ Live r s.log
  | .drop i => (∃ st, s.vars i = some ⟨.initializer, st⟩) ∨ ∃ r, owner s i = some r ∧ Live r s.log

/-- Specification: the threads nobody can join after the call: those whose identifier it overwrites while they run.  `run` overwrites it unless an error is
recorded. -/
def losing (s : St) : Op → List Nat
  | .run i | .runFail i _ => match s.vars i with
    | some ⟨.thr r, st⟩ => if st = 0 ∧ Live r s.log then [r] else []
    | _ => []
  | .moveAssign i _ => match s.vars i with
    | some ⟨.thr r, _⟩ => if Live r s.log then [r] else []
    | _ => []
  | _ => []

/-- A history of calls that all go through, with what it loses (the last loss first). -/
abbrev Hist := LossHist Thread.step losing init

/-- Books are right and no object has an unwritten context. -/
structure Inv (s : St) (lost : List Nat) : Prop where
  book : Book (owner s) lost s.log
  fresh : ∀ r, .made r ∈ s.log → r < s.next
  written : ∀ i o, s.vars i = some o → o.ctx ≠ .indet

theorem isInit_val {c : Ctx} (h : c ≠ .indet) : isInit c = .ok (decide (c = .initializer)) := by
  cases c <;> first | rfl | exact absurd rfl h

theorem prepared_val {o : Obj} (h : o.ctx ≠ .indet) :
    prepared o = .ok (if o.ctx = .initializer then some ⟨.ready, 0⟩ else if o.status = 0 then some o else none) := by
  unfold prepared
  rw [isInit_val h]
  by_cases e : o.ctx = .initializer
  · simp [e]
  · by_cases e2 : o.status = 0 <;> simp [e, e2]

theorem owner_val {s : St} {i : Nat} {o : Obj} (h : s.vars i = some o) : owner s i = ctxThr o.ctx := by simp [owner, h]

theorem written_upd {s : St} (h : ∀ i o, s.vars i = some o → o.ctx ≠ .indet) {i : Nat} {x : Option Obj} (hx : ∀ o, x = some o → o.ctx ≠ .indet)
    (k : Nat) (o : Obj) (hk : upd s.vars i x k = some o) : o.ctx ≠ .indet := by
  by_cases hki : k = i
  · subst hki; rw [upd_self] at hk; exact hx o hk
  · rw [upd_ne _ _ hki] at hk; exact h k o hk

/-- What a call that goes through does, and that it goes through exactly if defined. -/
theorem step_iff {s : St} {lost : List Nat} (h : Inv s lost) (o : Op) : (∃ s', Thread.step s o = .ok s') ↔ Defined s o := by
  cases o with
  | create i => cases hv : s.vars i <;> simp [Thread.step, Defined, hv]
  | moveCtor i j =>
    simp only [Defined, iff_false]
    rintro ⟨s', e⟩
    rw [C71_move_ctor_ub] at e; cases e
  | detach i =>
    simp only [Defined, iff_false]
    rintro ⟨s', e⟩
    rw [C71_detach_ub] at e; cases e
  | moveAssign i j =>
    cases hu : s.vars i with
    | none => simp [Thread.step, Defined, hu]
    | some u =>
      cases hv : s.vars j with
      | none => simp [Thread.step, Defined, hu, hv]
      | some v => simp [Thread.step, Defined, hu, hv, isInit_val (h.written i u hu)]
  | run i =>
    cases hu : s.vars i with
    | none => simp [Thread.step, Defined, hu]
    | some u =>
      simp only [Thread.step, Defined, hu, prepared_val (h.written i u hu)]
      cases (if u.ctx = .initializer then some ⟨.ready, 0⟩ else if u.status = 0 then some u else none : Option Obj) <;> simp
  | runFail i e =>
    cases hu : s.vars i with
    | none => simp [Thread.step, Defined, hu]
    | some u =>
      simp only [Thread.step, Defined, hu, prepared_val (h.written i u hu)]
      cases (if u.ctx = .initializer then some ⟨.ready, 0⟩ else if u.status = 0 then some u else none : Option Obj) <;> simp
  | join i =>
    cases hu : s.vars i with
    | none => simp [Thread.step, Defined, hu, owner]
    | some u =>
      obtain ⟨c, st⟩ := u
      simp only [Thread.step, Defined, hu, owner_val hu]
      cases c with
      | thr r => by_cases hl : Live r s.log <;> simp [joinLog, ctxThr, hl]
      | _ => simp [joinLog, ctxThr]
  | drop i =>
    cases hu : s.vars i with
    | none => simp [Thread.step, Defined, hu, owner]
    | some u =>
      have hw := h.written i u hu
      obtain ⟨c, st⟩ := u
      simp only [Thread.step, Defined, hu, owner_val hu]
      cases c with
      | thr r => by_cases hl : Live r s.log <;> simp [isInit, joinLog, ctxThr, hl]
      | initializer => simp [isInit]
      | ready => simp [isInit, joinLog, ctxThr]
      | indet => exact absurd rfl hw

theorem fresh_cons {s : St} (h : ∀ r, .made r ∈ s.log → r < s.next) (r : Nat) (hr : .made r ∈ Ev.made s.next :: s.log) : r < s.next + 1 := by
  rcases List.mem_cons.mp hr with e | e
  · injection e with e; omega
  · exact Nat.lt_succ_of_lt (h r e)

theorem inv_step {s s' : St} {lost : List Nat} (h : Inv s lost) {o : Op} (e : Thread.step s o = .ok s') : Inv s' (losing s o ++ lost) := by
  have hfresh : .made s.next ∉ s.log := fun hm => Nat.lt_irrefl _ (h.fresh _ hm)
  cases o with
  | create i =>
    cases hv : s.vars i with
    | some u => simp [Thread.step, hv] at e
    | none =>
      simp only [Thread.step, hv, Res.ok.injEq] at e
      subst e
      refine ⟨?_, h.fresh, written_upd h.written (by rintro o e; injection e with e; subst e; simp)⟩
      refine h.book.congr fun k => (owner_upd s i k _).trans ?_
      by_cases hk : k = i
      · subst hk; simp [ctxThr, owner, hv]
      · rw [upd_ne _ _ hk]
  | moveCtor i j => rw [C71_move_ctor_ub] at e; cases e
  | detach i => rw [C71_detach_ub] at e; cases e
  | moveAssign i j =>
    cases hu : s.vars i with
    | none => simp [Thread.step, hu] at e
    | some u =>
      cases hv : s.vars j with
      | none => simp [Thread.step, hu, hv] at e
      | some v =>
        simp only [Thread.step, hu, hv, isInit_val (h.written i u hu), Res.ok.injEq] at e
        subst e
        have hl : losing s (.moveAssign i j) = live s.log (owner s i) := by
          obtain ⟨c, st⟩ := u
          cases c <;> simp [losing, hu, live, owner, ctxThr]
        rw [hl]
        refine ⟨(h.book.assign i j).congr fun k => ?_, h.fresh, ?_⟩
        · show ((upd (upd s.vars i (some v)) j (some ⟨.initializer, 0⟩)) k).bind _ = _
          by_cases hkj : k = j
          · subst hkj; simp [ctxThr]
          · rw [upd_ne _ _ hkj, upd_ne _ _ hkj]
            by_cases hki : k = i
            · subst hki; simp [owner, hv]
            · rw [upd_ne _ _ hki, upd_ne _ _ hki]; rfl
        · intro k o hk
          by_cases hkj : k = j
          · subst hkj; simp at hk; subst hk; simp
          · simp only [upd_ne _ _ hkj] at hk
            exact written_upd h.written (i := i) (x := some v) (by rintro o e; injection e with e; subst e; exact h.written j _ hv) k o hk
  | run i =>
    cases hu : s.vars i with
    | none => simp [Thread.step, hu] at e
    | some u =>
      have hw := h.written i u hu
      simp only [Thread.step, hu, prepared_val hw] at e
      by_cases hq : u.ctx = .initializer ∨ u.status = 0
      · have hs : ∃ w, (if u.ctx = .initializer then some ⟨.ready, 0⟩ else if u.status = 0 then some u else none : Option Obj) = some w := by
          rcases hq with hq | hq
          · exact ⟨_, by rw [if_pos hq]⟩
          · by_cases hc : u.ctx = .initializer
            · exact ⟨_, by rw [if_pos hc]⟩
            · exact ⟨_, by rw [if_neg hc, if_pos hq]⟩
        obtain ⟨w, hs⟩ := hs
        simp only [hs, Res.ok.injEq] at e
        subst e
        have hl : losing s (.run i) = live s.log (owner s i) := by
          clear hs
          obtain ⟨c, st⟩ := u
          cases c <;> simp_all [losing, live, owner, ctxThr]
        rw [hl]
        refine ⟨?_, fresh_cons h.fresh, written_upd h.written (by rintro o e; injection e with e; subst e; simp)⟩
        refine ((h.book.forget i).make (i := i) (r := s.next) (by simp) hfresh).congr fun k => (owner_upd s i k _).trans ?_
        by_cases hk : k = i
        · subst hk; simp [ctxThr]
        · rw [upd_ne _ _ hk, upd_ne _ _ hk, upd_ne _ _ hk]
      · rw [not_or] at hq
        rw [if_neg hq.1, if_neg hq.2] at e
        simp only [Res.ok.injEq] at e
        subst e
        have hl : losing s (.run i) = [] := by
          obtain ⟨c, st⟩ := u
          cases c <;> simp_all [losing]
        rw [hl]; exact h
  | runFail i n =>
    cases hu : s.vars i with
    | none => simp [Thread.step, hu] at e
    | some u =>
      have hw := h.written i u hu
      simp only [Thread.step, hu, prepared_val hw] at e
      by_cases hq : u.ctx = .initializer ∨ u.status = 0
      · have hs : ∃ w, (if u.ctx = .initializer then some ⟨.ready, 0⟩ else if u.status = 0 then some u else none : Option Obj) = some w := by
          rcases hq with hq | hq
          · exact ⟨_, by rw [if_pos hq]⟩
          · by_cases hc : u.ctx = .initializer
            · exact ⟨_, by rw [if_pos hc]⟩
            · exact ⟨_, by rw [if_neg hc, if_pos hq]⟩
        obtain ⟨w, hs⟩ := hs
        simp only [hs, Res.ok.injEq] at e
        subst e
        have hl : losing s (.runFail i n) = live s.log (owner s i) := by
          clear hs
          obtain ⟨c, st⟩ := u
          cases c <;> simp_all [losing, live, owner, ctxThr]
        rw [hl]
        refine ⟨?_, h.fresh, written_upd h.written (by rintro o e; injection e with e; subst e; simp)⟩
        exact (h.book.forget i).congr fun k => owner_upd s i k _
      · rw [not_or] at hq
        rw [if_neg hq.1, if_neg hq.2] at e
        simp only [Res.ok.injEq] at e
        subst e
        have hl : losing s (.runFail i n) = [] := by
          obtain ⟨c, st⟩ := u
          cases c <;> simp_all [losing]
        rw [hl]; exact h
  | join i =>
    obtain ⟨r, ho, hl⟩ := (step_iff h (.join i)).mp ⟨s', e⟩
    obtain ⟨st, hv⟩ := owner_thr ho
    simp only [Thread.step, hv, joinLog, if_pos hl, Res.ok.injEq] at e
    subst e
    refine ⟨(h.book.release ho hl).congr fun k => (owner_upd s i k _).trans ?_, fun q hq => h.fresh q (by simpa using hq),
      written_upd h.written (by rintro o e; injection e with e; subst e; simp)⟩
    by_cases hk : k = i
    · subst hk; simp [ctxThr, ho]
    · rw [upd_ne _ _ hk]
  | drop i =>
    rcases (step_iff h (.drop i)).mp ⟨s', e⟩ with ⟨st, hv⟩ | ⟨r, ho, hl⟩
    · simp only [Thread.step, hv, isInit, Res.ok.injEq] at e
      subst e
      refine ⟨h.book.congr fun k => (owner_upd s i k _).trans ?_, h.fresh, written_upd h.written (by simp)⟩
      by_cases hk : k = i
      · subst hk; simp [owner, hv, ctxThr]
      · rw [upd_ne _ _ hk]
    · obtain ⟨st, hv⟩ := owner_thr ho
      simp only [Thread.step, hv, isInit, joinLog, if_pos hl, Res.ok.injEq] at e
      subst e
      have hb := (h.book.release ho hl).forget i
      have hd : live (.closed r :: s.log) (owner s i) = [] := by simp [live, ho, Live]
      rw [hd] at hb
      exact ⟨hb.congr fun k => owner_upd s i k _, fun q hq => h.fresh q (by simpa using hq), written_upd h.written (by simp)⟩

theorem hist_inv {s : St} {lost : List Nat} (h : Hist s lost) : Inv s lost := by
  induction h with
  | start => exact ⟨Book.init.congr (by intro i; rfl), by simp [init], by simp [init]⟩
  | step _ e ih => exact inv_step ih e

end Flame.ThreadSpec

namespace Flame
open Own Own.Thread

/-- **C71, exactly: defined calls.**  After every history of calls on thread objects, a further call is defined if and only if: its objects are declared, it is
neither a move construction nor `detach`, and if it is `join` the thread still runs, and if it is the destructor the object never ran or its thread still runs. -/
theorem C71_defined_exact {s : Own.Thread.St} {lost : List Nat} (h : ThreadSpec.Hist s lost) (o : Own.Thread.Op) :
    (∃ s', Own.Thread.step s o = .ok s') ↔ ThreadSpec.Defined s o := ThreadSpec.step_iff (ThreadSpec.hist_inv h) o

/-- **C71, exactly: lost threads.**  After every defined history: no thread was released twice; a thread that was not released is named by exactly one object or is
one of those the history lost; and once all objects are gone, the unreleased threads are exactly the lost ones — so each thread was released exactly once if and only if the
history never ran, or assigned over, an object whose thread still ran. -/
theorem C71_lost_exact {s : Own.Thread.St} {lost : List Nat} (h : ThreadSpec.Hist s lost) :
    Proper s.log ∧ (∀ r, Live r s.log ↔ ((∃ i, Own.Thread.owner s i = some r) ∧ .closed r ∉ s.log) ∨ r ∈ lost) ∧
    ((∀ i, s.vars i = none) → (∀ r, Live r s.log ↔ r ∈ lost) ∧ (ReleasedOnce s.log ↔ lost = [])) := by
  have hb := (ThreadSpec.hist_inv h).book
  refine ⟨hb.proper, fun r => ⟨fun hr => ?_, ?_⟩, fun hg => hb.finish fun i => by simp [owner, hg i]⟩
  · rcases hb.kept r hr with hk | hk
    · exact .inl ⟨hk, hr.2⟩
    · exact .inr hk
  · rintro (⟨⟨i, hi⟩, hc⟩ | hr)
    · exact ⟨hb.made i r hi, hc⟩
    · exact (hb.lost r hr).1

-- a history that joins by hand, assigns over the joined object and loses nothing
example : ∃ s, ThreadSpec.Hist s [] ∧ (s.vars 0, s.vars 1, s.log) = (none, none, [.closed 1, .made 1, .closed 0, .made 0]) :=
  LossHist.witness [.create 0, .create 1, .run 0, .join 0, .run 1, .moveAssign 0 1, .drop 0, .drop 1] _ _ (by decide)

-- a history that loses a thread twice: by running again and by assigning over
example : ∃ s, ThreadSpec.Hist s [1, 0] ∧ (s.vars 0, s.vars 1, s.log) = (none, none, [.made 1, .made 0]) :=
  LossHist.witness [.create 0, .create 1, .run 0, .run 0, .moveAssign 0 1, .drop 0, .drop 1] _ _ (by decide)

namespace Flame
example : ∃ s, (∃ s', Own.Thread.step s (.join 1) = .ok s') ↔ ThreadSpec.Defined s (.join 1) :=
  (show ∃ s, ThreadSpec.Hist s [] ∧ s.log = [.made 1, .closed 0, .made 0] from
    LossHist.witness [.create 0, .create 1, .run 0, .join 0, .run 1] _ _ (by decide)).imp fun _ h => C71_defined_exact h.1 (.join 1)
end Flame

end Flame
