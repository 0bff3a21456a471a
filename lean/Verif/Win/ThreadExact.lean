import Verif.Own.Book
import Verif.Win.ThreadProps

/-!
# C114, exactly: which histories of Windows thread objects are defined, and which handles they lose

Unlike `C114_handles_partial`, nothing is assumed about the histories.
-/

namespace Flame.WinThreadSpec
open Flame.Own Flame.WinThread

/-- Specification: the call is defined: its objects are declared and it is not a move construction. -/
def Defined (s : St) : Op → Prop
  | .create i => s.vars i = none
  | .moveCtor _ _ => False
  | .moveAssign i j => s.vars i ≠ none ∧ s.vars j ≠ none
  | .run i | .runFail i _ | .join i | .detach i | .drop i => s.vars i ≠ none

/-- Specification: the handle nobody can close after the call: `run` overwrites the handle of an object that has a thread, whether it was joined or not, and whether
or not a new thread can be started. -/
def losing (s : St) : Op → List Nat
  | .run i | .runFail i _ => match s.vars i with
    | some ⟨.thr r, _⟩ => [r]
    | _ => []
  | _ => []

/-- A history of calls that all go through, with what it loses (the last loss first). -/
abbrev Hist := LossHist WinThread.step losing init

/-- Books are right; contexts are written; what an object names is open; an object with a thread records no error. -/
structure Inv (s : St) (lost : List Nat) : Prop where
  book : Book (owner s) lost s.log
  fresh : ∀ r, .made r ∈ s.log → r < s.next
  written : ∀ i o, s.vars i = some o → o.ctx ≠ .indet ∧ ∀ r, o.ctx = .thr r → o.status = 0
  isOpen : ∀ i r, owner s i = some r → Live r s.log

theorem written_upd {s : St} (h : ∀ i o, s.vars i = some o → o.ctx ≠ .indet ∧ ∀ r, o.ctx = .thr r → o.status = 0) {i : Nat} {x : Option Obj}
    (hx : ∀ o, x = some o → o.ctx ≠ .indet ∧ ∀ r, o.ctx = .thr r → o.status = 0)
    (k : Nat) (o : Obj) (hk : upd s.vars i x k = some o) : o.ctx ≠ .indet ∧ ∀ r, o.ctx = .thr r → o.status = 0 := by
  by_cases hki : k = i
  · subst hki; rw [upd_self] at hk; exact hx o hk
  · rw [upd_ne _ _ hki] at hk; exact h k o hk

theorem live_used {q r : Nat} {l : List Ev} (h : Live q l) : Live q (.used r :: l) := ⟨List.mem_cons_of_mem _ h.1, by simpa using h.2⟩

/-- Replacing the contents of one variable. -/
theorem Inv.set {s : St} {lost lost' : List Nat} (h : Inv s lost) {i : Nat} {o : Option Obj} {log : List Ev} {d : List Nat}
    (hb : Book (upd (owner s) i (o.bind fun o => ctxThr o.ctx)) lost' log)
    (hf : ∀ r, .made r ∈ log → .made r ∈ s.log) (hd : ∀ x, o = some x → x.ctx ≠ .indet ∧ ∀ r, x.ctx = .thr r → x.status = 0)
    (ho : ∀ k r, upd (owner s) i (o.bind fun o => ctxThr o.ctx) k = some r → Live r log) :
    Inv { s with vars := upd s.vars i o, log := log, dangling := d } lost' :=
  ⟨hb.congr (fun k => owner_upd s i k o), fun r hr => h.fresh r (hf r hr), written_upd h.written hd,
    fun k r hk => ho k r ((owner_upd s i k o).symm.trans hk)⟩

theorem upd_none_some_w {own : Nat → Option Nat} {i k r : Nat} (h : upd own i none k = some r) : k ≠ i ∧ own k = some r := by
  by_cases hki : k = i
  · subst hki; simp at h
  · rw [upd_ne _ _ hki] at h; exact ⟨hki, h⟩

/-- Closing the handle of variable `i`, if it has one. -/
theorem close {s : St} {lost : List Nat} (h : Inv s lost) {i : Nat} {o : Obj} (hv : s.vars i = some o) {l : List Ev}
    (hl : l = s.log ∨ ∃ r, o.ctx = .thr r ∧ l = .used r :: s.log) :
    ∃ log st, destroy l o.ctx = .ok (log, st) ∧ Book (upd (owner s) i none) lost log ∧ (∀ r, .made r ∈ log → .made r ∈ s.log) ∧
      (∀ k r, upd (owner s) i none k = some r → Live r log) ∧ (o.ctx = .initializer → log = l) ∧ (st = if o.ctx = .initializer then -1 else 0) := by
  have ho := owner_of hv
  have hb : Book (owner s) lost l ∧ (∀ k r, owner s k = some r → Live r l) ∧ ∀ r, .made r ∈ l → .made r ∈ s.log := by
    rcases hl with e | ⟨r, hc, e⟩
    · subst e; exact ⟨h.book, h.isOpen, fun _ hr => hr⟩
    · subst e
      rw [hc] at ho
      exact ⟨h.book.use (h.isOpen i r ho), fun k q hk => live_used (h.isOpen k q hk), fun q hq => by simpa using hq⟩
  obtain ⟨c, st⟩ := o
  have idle : owner s i = none → upd (owner s) i none = owner s := fun e => upd_same _ _ e
  cases c with
  | initializer =>
    refine ⟨l, -1, rfl, ?_, hb.2.2, ?_, fun _ => rfl, rfl⟩
    · rw [idle ho]; exact hb.1
    · rw [idle ho]; exact hb.2.1
  | ready =>
    refine ⟨l, 0, rfl, ?_, hb.2.2, ?_, fun _ => rfl, rfl⟩
    · rw [idle ho]; exact hb.1
    · rw [idle ho]; exact hb.2.1
  | thr r =>
    have hlive := hb.2.1 i r ho
    refine ⟨.closed r :: l, 0, by simp [destroy, hlive], ?_, fun q hq => hb.2.2 q (by simpa using hq), ?_, by simp, rfl⟩
    · have hx := (hb.1.release ho hlive).forget i
      have hd : live (.closed r :: l) (owner s i) = [] := by simp [live, ho, ctxThr, Live]
      rwa [hd] at hx
    · intro k q hk
      obtain ⟨hki, hk⟩ := upd_none_some_w hk
      obtain ⟨h1, h2⟩ := hb.2.1 k q hk
      refine ⟨List.mem_cons_of_mem _ h1, fun hc => ?_⟩
      rcases List.mem_cons.mp hc with e | e
      · injection e with e
        subst e
        exact hki (h.book.unique k i q hk ho)
      · exact h2 e
  | indet => exact absurd rfl (h.written i _ hv).1

theorem wait_ok {s : St} {lost : List Nat} (h : Inv s lost) {i : Nat} {o : Obj} (hv : s.vars i = some o) :
    ∃ log st, WinThread.join s.log o.ctx = .ok (log, st) ∧ ((log = s.log ∧ ∀ r, o.ctx ≠ .thr r) ∨ ∃ r, o.ctx = .thr r ∧ st = 0 ∧ log = .used r :: s.log) := by
  have ho := owner_of hv
  obtain ⟨c, st⟩ := o
  cases c with
  | initializer => exact ⟨_, _, rfl, .inl ⟨rfl, by simp⟩⟩
  | ready => exact ⟨_, _, rfl, .inl ⟨rfl, by simp⟩⟩
  | thr r => exact ⟨.used r :: s.log, 0, by simp [WinThread.join, h.isOpen i r ho], .inr ⟨r, rfl, rfl, rfl⟩⟩
  | indet => exact absurd rfl (h.written i _ hv).1

/-- Every defined call goes through and keeps the books. -/
theorem step_book {s : St} {lost : List Nat} (h : Inv s lost) {o : Op} (hp : Defined s o) :
    ∃ s', WinThread.step s o = .ok s' ∧ Inv s' (losing s o ++ lost) := by
  have hfresh : .made s.next ∉ s.log := fun hm => Nat.lt_irrefl _ (h.fresh _ hm)
  cases o with
  | moveCtor i j => exact absurd hp id
  | create i =>
    have hv : s.vars i = none := hp
    have hs : upd (owner s) i none = owner s := upd_same _ _ (by simp [owner, hv])
    refine ⟨{ s with vars := upd s.vars i (some ⟨.initializer, 0⟩) }, by simp [WinThread.step, hv], ?_⟩
    refine h.set (log := s.log) (d := s.dangling) ?_ (fun _ hr => hr) (by rintro x e; injection e with e; subst e; simp) ?_
    · show Book (upd (owner s) i none) lost s.log
      rw [hs]; exact h.book
    · show ∀ k r, upd (owner s) i none k = some r → _
      rw [hs]; exact h.isOpen
  | moveAssign i j =>
    obtain ⟨hi, hj⟩ := hp
    obtain ⟨u, hu⟩ := Option.ne_none_iff_exists'.mp hi
    obtain ⟨v, hv⟩ := Option.ne_none_iff_exists'.mp hj
    obtain ⟨log, st, hd, hb, hm, hop, hinit, -⟩ := close h hu (.inl rfl)
    have hstep : WinThread.step s (.moveAssign i j) =
        .ok { s with vars := upd (upd s.vars i (some v)) j (some ⟨.initializer, 0⟩), log := log } := by
      simp only [WinThread.step, hu, hv, isInit_ok (h.written i u hu).1]
      by_cases e : u.ctx = .initializer
      · simp [e, hinit e]
      · simp [e, hd]
    have hown : ∀ k, owner { s with vars := upd (upd s.vars i (some v)) j (some ⟨.initializer, 0⟩), log := log } k =
        upd (upd (upd (owner s) i none) i (upd (owner s) i none j)) j none k := by
      intro k
      show ((upd (upd s.vars i (some v)) j (some ⟨.initializer, 0⟩)) k).bind (fun o => ctxThr o.ctx) = _
      by_cases hkj : k = j
      · subst hkj; simp [ctxThr]
      · rw [upd_ne _ _ hkj, upd_ne _ _ hkj]
        by_cases hki : k = i
        · subst hki
          have : j ≠ k := fun e => hkj e.symm
          simp only [upd_self, upd_ne _ _ this, owner_of hv, Option.bind_some]
        · rw [upd_ne _ _ hki, upd_ne _ _ hki, upd_ne _ _ hki]; rfl
    refine ⟨_, hstep, (hb.hand (i := i) (j := j) (by simp)).congr hown, fun r hr => h.fresh r (hm r hr), ?_, ?_⟩
    · intro k x hk
      by_cases hkj : k = j
      · subst hkj; simp at hk; subst hk; simp
      · simp only [upd_ne _ _ hkj] at hk
        exact written_upd h.written (i := i) (x := some v) (by rintro o e; injection e with e; subst e; exact h.written j _ hv) k x hk
    · intro k r hk
      rw [hown] at hk
      obtain ⟨hkj, hk⟩ := upd_none_some_w hk
      by_cases hki : k = i
      · subst hki; rw [upd_self] at hk; exact hop j r hk
      · rw [upd_ne _ _ hki] at hk; exact hop k r hk
  | run i =>
    obtain ⟨o, ho⟩ := Option.ne_none_iff_exists'.mp (show s.vars i ≠ none from hp)
    obtain ⟨hw, hz⟩ := h.written i o ho
    have hpr := prepared_ok hw
    by_cases hq : o.ctx = .initializer ∨ o.status = 0
    · have hs : ∃ w, (if o.ctx = .initializer then some ⟨.ready, 0⟩ else if o.status = 0 then some o else none : Option Obj) = some w := by
        rcases hq with hq | hq
        · exact ⟨_, by rw [if_pos hq]⟩
        · by_cases hc : o.ctx = .initializer
          · exact ⟨_, by rw [if_pos hc]⟩
          · exact ⟨_, by rw [if_neg hc, if_pos hq]⟩
      obtain ⟨w, hs⟩ := hs
      rw [hs] at hpr
      have hl : losing s (.run i) = live s.log (owner s i) := by
        obtain ⟨c, st⟩ := o
        cases c with
        | thr r => simp [losing, ho, live, owner, ctxThr, h.isOpen i r (owner_of ho)]
        | _ => simp [losing, ho, live, owner, ctxThr]
      refine ⟨{ s with vars := upd s.vars i (some ⟨.thr s.next, 0⟩), next := s.next + 1, log := .made s.next :: s.log, host := upd s.host s.next i },
        by simp [WinThread.step, ho, hpr], ?_, ?_, written_upd h.written (by rintro x e; injection e with e; subst e; simp), ?_⟩
      · rw [hl]
        refine ((h.book.forget i).make (i := i) (r := s.next) (by simp) hfresh).congr fun k => (owner_upd s i k _).trans ?_
        by_cases hk : k = i
        · subst hk; simp [ctxThr]
        · rw [upd_ne _ _ hk, upd_ne _ _ hk, upd_ne _ _ hk]
      · intro r hr
        rcases List.mem_cons.mp hr with e | e
        · injection e with e; subst e; exact Nat.lt_succ_self _
        · exact Nat.lt_succ_of_lt (h.fresh r e)
      · intro k r hk
        replace hk := (owner_upd s i k _).symm.trans hk
        by_cases hki : k = i
        · subst hki
          simp [ctxThr] at hk
          subst hk
          exact ⟨List.mem_cons_self, fun hc => hfresh (closed_made h.book.proper (by simpa using hc))⟩
        · rw [upd_ne _ _ hki] at hk
          obtain ⟨h1, h2⟩ := h.isOpen k r hk
          exact ⟨List.mem_cons_of_mem _ h1, by simpa using h2⟩
    · rw [not_or] at hq
      rw [if_neg hq.1, if_neg hq.2] at hpr
      have hl : losing s (.run i) = [] := by
        obtain ⟨c, st⟩ := o
        cases c with
        | thr r => exact absurd (hz r rfl) hq.2
        | _ => simp [losing, ho]
      exact ⟨s, by simp [WinThread.step, ho, hpr], by rw [hl]; exact h⟩
  | runFail i n =>
    obtain ⟨o, ho⟩ := Option.ne_none_iff_exists'.mp (show s.vars i ≠ none from hp)
    obtain ⟨hw, hz⟩ := h.written i o ho
    have hpr := prepared_ok hw
    by_cases hq : o.ctx = .initializer ∨ o.status = 0
    · have hs : ∃ w, (if o.ctx = .initializer then some ⟨.ready, 0⟩ else if o.status = 0 then some o else none : Option Obj) = some w := by
        rcases hq with hq | hq
        · exact ⟨_, by rw [if_pos hq]⟩
        · by_cases hc : o.ctx = .initializer
          · exact ⟨_, by rw [if_pos hc]⟩
          · exact ⟨_, by rw [if_neg hc, if_pos hq]⟩
      obtain ⟨w, hs⟩ := hs
      rw [hs] at hpr
      have hl : losing s (.runFail i n) = live s.log (owner s i) := by
        obtain ⟨c, st⟩ := o
        cases c with
        | thr r => simp [losing, ho, live, owner, ctxThr, h.isOpen i r (owner_of ho)]
        | _ => simp [losing, ho, live, owner, ctxThr]
      refine ⟨{ s with vars := upd s.vars i (some ⟨.ready, -(n : Int)⟩) }, by simp [WinThread.step, ho, hpr], ?_⟩
      rw [hl]
      refine h.set (log := s.log) (d := s.dangling) (h.book.forget i) (fun _ hr => hr) (by rintro x e; injection e with e; subst e; simp) ?_
      intro k r hk
      exact h.isOpen k r (upd_none_some_w hk).2
    · rw [not_or] at hq
      rw [if_neg hq.1, if_neg hq.2] at hpr
      have hl : losing s (.runFail i n) = [] := by
        obtain ⟨c, st⟩ := o
        cases c with
        | thr r => exact absurd (hz r rfl) hq.2
        | _ => simp [losing, ho]
      exact ⟨s, by simp [WinThread.step, ho, hpr], by rw [hl]; exact h⟩
  | join i =>
    obtain ⟨o, ho⟩ := Option.ne_none_iff_exists'.mp (show s.vars i ≠ none from hp)
    obtain ⟨log, st, hj, hlog⟩ := wait_ok h ho
    have hs : upd (owner s) i (ctxThr o.ctx) = owner s := upd_same _ _ (owner_of ho)
    refine ⟨{ s with vars := upd s.vars i (some ⟨o.ctx, st⟩), log := log }, by simp [WinThread.step, ho, hj], ?_⟩
    refine h.set (d := s.dangling) ?_ ?_ ?_ ?_
    · show Book (upd (owner s) i (ctxThr o.ctx)) lost log
      rw [hs]
      rcases hlog with ⟨e, -⟩ | ⟨r, hc, -, e⟩
      · rw [e]; exact h.book
      · rw [e]; exact h.book.use (h.isOpen i r (by rw [owner_of ho, hc]; rfl))
    · rcases hlog with ⟨e, -⟩ | ⟨r, hc, -, e⟩
      · rw [e]; exact fun _ hr => hr
      · rw [e]; intro q hq; simpa using hq
    · rintro x e
      injection e with e
      subst e
      refine ⟨(h.written i o ho).1, fun r hr => ?_⟩
      rcases hlog with ⟨-, hn⟩ | ⟨q, hc, hz, -⟩
      · exact absurd hr (hn r)
      · exact hz
    · show ∀ k r, upd (owner s) i (ctxThr o.ctx) k = some r → _
      rw [hs]
      rcases hlog with ⟨e, -⟩ | ⟨r, hc, -, e⟩
      · rw [e]; exact h.isOpen
      · rw [e]; exact fun k q hk => live_used (h.isOpen k q hk)
  | detach i =>
    obtain ⟨o, ho⟩ := Option.ne_none_iff_exists'.mp (show s.vars i ≠ none from hp)
    obtain ⟨log, st, hd, hb, hm, hop, hinit, hst⟩ := close h ho (.inl rfl)
    by_cases e : st = 0
    · refine ⟨{ s with vars := upd s.vars i (some ⟨.initializer, 0⟩), log := log }, by simp [WinThread.step, ho, WinThread.detach, hd, e], ?_⟩
      exact h.set (d := s.dangling) hb hm (by rintro x e; injection e with e; subst e; simp) hop
    · have hci : o.ctx = .initializer := Classical.byContradiction fun hn => e (by rw [hst, if_neg hn])
      refine ⟨{ s with vars := upd s.vars i (some ⟨o.ctx, st⟩), log := log }, by simp [WinThread.step, ho, WinThread.detach, hd, e], ?_⟩
      refine h.set (d := s.dangling) ?_ hm ?_ ?_
      · simpa [hci, ctxThr, losing] using hb
      · rintro x e; injection e with e; subst e; simp [hci]
      · simpa [hci, ctxThr] using hop
  | drop i =>
    obtain ⟨o, ho⟩ := Option.ne_none_iff_exists'.mp (show s.vars i ≠ none from hp)
    obtain ⟨l, st, hj, hl⟩ := wait_ok h ho
    obtain ⟨log, st', hd, hb, hm, hop, hinit, -⟩ := close h ho (l := l) (by
      rcases hl with ⟨e, -⟩ | ⟨r, hc, -, e⟩
      · exact .inl e
      · exact .inr ⟨r, hc, e⟩)
    have hstep : WinThread.step s (.drop i) = .ok ⟨upd s.vars i none, s.next, log, s.host, working s.host s.next i log ++ s.dangling⟩ := by
      simp only [WinThread.step, ho, isInit_ok (h.written i o ho).1]
      by_cases e : o.ctx = .initializer
      · have hls : l = s.log := by
          rcases hl with ⟨e', -⟩ | ⟨r, hc, -⟩
          · exact e'
          · rw [e] at hc; cases hc
        simp [e, hinit e, hls]
      · simp [e, hj, hd]
    exact ⟨_, hstep, h.set (o := none) hb hm (by simp) hop⟩

theorem hist_inv {s : St} {lost : List Nat} (h : Hist s lost) : Inv s lost := by
  induction h with
  | start => exact ⟨Book.init.congr (by intro i; rfl), by simp [init], by simp [init], by simp [init, owner]⟩
  | @step s s' lost o _ e ih =>
    have hd : Defined s o := by
      cases o with
      | moveCtor i j => rw [C114_move_ctor_ub] at e; cases e
      | create i => cases hv : s.vars i <;> simp_all [WinThread.step, Defined]
      | moveAssign i j =>
        refine ⟨fun hv => ?_, fun hv => ?_⟩
        · simp [WinThread.step, hv] at e
        · cases hu : s.vars i <;> simp [WinThread.step, hv, hu] at e
      | _ => intro hv; simp [WinThread.step, hv] at e
    obtain ⟨t, ht, hi⟩ := step_book ih hd
    rw [e] at ht
    injection ht with ht
    subst ht
    exact hi

end Flame.WinThreadSpec

namespace Flame
open Own

/-- **C114, exactly: defined calls.**  After every history, a call on Windows thread objects is defined if and only if its objects are declared and it is not a move construction. -/
theorem C114_defined_exact {s : WinThread.St} {lost : List Nat} (h : WinThreadSpec.Hist s lost) (o : WinThread.Op) :
    (∃ s', WinThread.step s o = .ok s') ↔ WinThreadSpec.Defined s o := by
  refine ⟨?_, fun hd => let ⟨s', e, _⟩ := WinThreadSpec.step_book (WinThreadSpec.hist_inv h) hd; ⟨s', e⟩⟩
  rintro ⟨s', e⟩
  cases o with
  | moveCtor i j => rw [WinThread.C114_move_ctor_ub] at e; cases e
  | create i => cases hv : s.vars i <;> simp_all [WinThread.step, WinThreadSpec.Defined]
  | moveAssign i j =>
    refine ⟨fun hv => ?_, fun hv => ?_⟩
    · simp [WinThread.step, hv] at e
    · cases hu : s.vars i <;> simp [WinThread.step, hv, hu] at e
  | _ => intro hv; simp [WinThread.step, hv] at e

/-- **C114, exactly: lost handles.**  After every defined history: no handle was closed twice or used after it was closed, and nothing else was closed; an open handle is
named by exactly one object or is one of those the history lost; every handle an object names is open; and once all objects are gone the open handles are exactly the lost
ones — each handle was closed exactly once if and only if the history never ran an object that already had a thread. -/
theorem C114_lost_exact {s : WinThread.St} {lost : List Nat} (h : WinThreadSpec.Hist s lost) :
    Proper s.log ∧ (∀ r, Live r s.log ↔ (∃ i, WinThread.owner s i = some r) ∨ r ∈ lost) ∧
    ((∀ i, s.vars i = none) → (∀ r, Live r s.log ↔ r ∈ lost) ∧ (ReleasedOnce s.log ↔ lost = [])) := by
  have hi := WinThreadSpec.hist_inv h
  refine ⟨hi.book.proper, fun r => ⟨fun hr => hi.book.kept r hr, ?_⟩, fun hg => hi.book.finish fun i => by simp [WinThread.owner, hg i]⟩
  rintro (⟨i, hr⟩ | hr)
  · exact hi.isOpen i r hr
  · exact (hi.book.lost r hr).1

-- a history that joins twice, detaches and assigns over, and loses nothing
example : ∃ s, WinThreadSpec.Hist s [] ∧ (s.vars 0, s.vars 1, s.log) = (none, none, [.closed 1, .used 1, .closed 0, .made 1, .used 0, .used 0, .made 0]) :=
  LossHist.witness [.create 0, .create 1, .run 0, .join 0, .join 0, .run 1, .moveAssign 0 1, .drop 0, .detach 1, .drop 1] _ _ (by decide)

-- a history that joins, runs again and loses the first handle
example : ∃ s, WinThreadSpec.Hist s [0] ∧ (s.vars 0, s.log) = (none, [.closed 1, .used 1, .made 1, .used 0, .made 0]) :=
  LossHist.witness [.create 0, .run 0, .join 0, .run 0, .drop 0] _ _ (by decide)

namespace Flame
example : ∃ s, (∃ s', WinThread.step s (.run 0) = .ok s') ↔ WinThreadSpec.Defined s (.run 0) :=
  (show ∃ s, WinThreadSpec.Hist s [] ∧ s.log = [.made 0] from
    LossHist.witness [.create 0, .run 0] _ _ (by decide)).imp fun _ h => C114_defined_exact h.1 (.run 0)
end Flame

end Flame
