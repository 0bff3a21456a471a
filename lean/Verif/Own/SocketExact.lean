import Verif.Own.Book
import Verif.Own.SocketProps

/-!
# C42, exactly: which sockets are lost and when something foreign is closed

All histories a program can have (variables declared before use and once, descriptors handed out by the system): also assignments over objects that hold a socket, to
themselves, and calls on moved-from objects.
-/

namespace Flame.SockSpec
open Flame.Own Flame.Own.Sock

/-- Specification: the call closes descriptor 0: it disconnects, reconnects or (other than an accepted connection) destroys an object that was moved from. -/
def ClosesZero (c : Cls) (s : St) : Op → Prop
  | .disconnect i | .reconnect i _ _ => (s.vars i).map Var.fd = some 0
  | .drop i => c = .base ∧ (s.vars i).map Var.fd = some 0
  | _ => False

instance (c : Cls) (s : St) (o : Op) : Decidable (ClosesZero c s o) := by
  cases o <;> unfold ClosesZero <;> infer_instance

/-- Specification: the socket nobody will close after the call: the one held by an object that is assigned to. -/
def losing (s : St) : Op → List Nat
  | .moveAssign i _ => (owner s i).toList
  | _ => []

/-- Histories, with the sockets lost and whether some call closed descriptor 0. -/
inductive Hist (c : Cls) (t : Int → Bool) : St → List Nat → Bool → Prop
  | start : Hist c t (start t) [] false
  | step {s s' : St} {lost : List Nat} {bad : Bool} {o : Op} : Hist c t s lost bad → pre s o → step c s o = .ok s' →
      Hist c t s' (losing s o ++ lost) (bad || decide (ClosesZero c s o))

structure Inv (s : St) (lost : List Nat) : Prop where
  book : OBook (owner s) lost s.log
  fresh : ∀ r, .made r ∈ s.log → r < s.next
  tabFresh : ∀ d r, s.tab d = some (.ours r) → r < s.next
  tabInj : ∀ d e r, s.tab d = some (.ours r) → s.tab e = some (.ours r) → d = e
  zero : s.tab 0 = some .foreign
  minus : s.tab (-1) = none
  varsOk : ∀ i v, s.vars i = some v → v.fd = -1 ∨ v.fd = 0 ∨ ∃ r, s.tab v.fd = some (.ours r)

theorem inv_start {t : Int → Bool} (h0 : t 0 = true) (h1 : t (-1) = false) : Inv (start t) [] := by
  refine ⟨OBook.init.congr (by intro i; rfl), by simp [start], ?_, ?_, by simp [start, h0], by simp [start, h1],
    by simp [start]⟩
  · intro d r h
    simp only [start] at h
    split at h <;> cases h
  · intro d e r h
    simp only [start] at h
    split at h <;> cases h

theorem owner_none_of_special {s : St} {lost : List Nat} (h : Inv s lost) {i : Nat} {v : Var} (hv : s.vars i = some v)
    (hf : v.fd = -1 ∨ v.fd = 0) : owner s i = none := by
  unfold owner
  rw [hv]
  simp only
  rcases hf with e | e
  · rw [e, h.minus]
  · rw [e, h.zero]

/-- Closing the descriptor of variable `i`, which then no longer refers to it. -/
theorem close_inv {s : St} {lost : List Nat} (h : Inv s lost) {i : Nat} {v : Var} (hv : s.vars i = some v) (hz : v.fd ≠ 0)
    {w : Option Var} (hw : ∀ x, w = some x → x.fd = -1) :
    Inv { s with vars := upd s.vars i w, tab := (destroy s.tab s.log v.fd).1, log := (destroy s.tab s.log v.fd).2.1 } lost ∧
      ((destroy s.tab s.log v.fd).2.2.1 = -1) := by
  rcases h.varsOk i v hv with e | e | ⟨r, e⟩
  · have hd : destroy s.tab s.log v.fd = (s.tab, .closedNothing :: s.log, v.fd, -9) := by
      unfold destroy; rw [e, h.minus]
    rw [hd]
    refine ⟨⟨?_, ?_, h.tabFresh, h.tabInj, h.zero, h.minus, ?_⟩, e⟩
    · refine h.book.nothing.congr ?_
      intro k
      by_cases hk : k = i
      · subst hk
        rw [owner_none_of_special h hv (.inl e)]
        unfold owner
        simp only [upd_self]
        cases w with
        | none => rfl
        | some x => simp only [hw x rfl, h.minus]
      · unfold owner; simp only [upd_ne _ _ hk]
    · intro r hr; exact h.fresh r (by simpa using hr)
    · intro k x hk
      by_cases hki : k = i
      · subst hki
        simp only [upd_self] at hk
        exact .inl (hw x hk)
      · simp only [upd_ne _ _ hki] at hk
        exact h.varsOk k x hk
  · exact absurd e hz
  · have hd : destroy s.tab s.log v.fd = (upd s.tab v.fd none, .closed r :: s.log, invalidFd, STATUS_SUCCESS) := by
      unfold destroy; rw [e]
    rw [hd]
    have ho : owner s i = some r := owner_some.mpr ⟨v, hv, e⟩
    have hm : v.fd ≠ -1 := by intro e'; rw [e', h.minus] at e; cases e
    -- no other variable has this descriptor
    have hother : ∀ k x, k ≠ i → s.vars k = some x → x.fd ≠ v.fd := by
      intro k x hk hx he
      exact hk (h.book.unique k i r (owner_some.mpr ⟨x, hx, by rw [he]; exact e⟩) ho)
    refine ⟨⟨?_, ?_, ?_, ?_, ?_, ?_, ?_⟩, rfl⟩
    · refine (h.book.close ho).congr ?_
      intro k
      by_cases hk : k = i
      · subst hk
        rw [upd_self]
        unfold owner
        simp only [upd_self]
        cases w with
        | none => rfl
        | some x =>
          simp only [hw x rfl]
          rw [upd_ne _ _ (fun e' => hm e'.symm), h.minus]
      · rw [upd_ne _ _ hk]
        unfold owner
        simp only [upd_ne _ _ hk]
        cases hx : s.vars k with
        | none => rfl
        | some x => simp only [upd_ne _ _ (hother k x hk hx)]
    · intro q hq; exact h.fresh q (by simpa using hq)
    · intro d q hd
      by_cases hdf : d = v.fd
      · subst hdf; simp at hd
      · simp only [upd_ne _ _ hdf] at hd; exact h.tabFresh d q hd
    · intro d d' q h1 h2
      by_cases hdf : d = v.fd
      · subst hdf; simp at h1
      · by_cases hdf' : d' = v.fd
        · subst hdf'; simp at h2
        · simp only [upd_ne _ _ hdf] at h1
          simp only [upd_ne _ _ hdf'] at h2
          exact h.tabInj d d' q h1 h2
    · simp only [upd_ne _ _ (fun e' => hz e'.symm)]; exact h.zero
    · simp only [upd_ne _ _ (fun e' => hm e'.symm)]; exact h.minus
    · intro k x hk
      by_cases hki : k = i
      · subst hki
        simp only [upd_self] at hk
        exact .inl (hw x hk)
      · simp only [upd_ne _ _ hki] at hk
        simp only [upd_ne _ _ (hother k x hki hk)]
        exact h.varsOk k x hk

theorem closed_inv {s : St} {lost : List Nat} (h : Inv s lost) {i : Nat} {v : Var} (hv : s.vars i = some v) (hz : v.fd ≠ 0) : Inv (closed s i v) lost := by
  have hfd := (close_inv h hv hz (w := none) (by simp)).2
  exact (close_inv h hv hz (w := some _) (by intro x hx; injection hx with hx; subst hx; exact hfd)).1

/-- A move between two variables: what the receiver was responsible for is lost. -/
theorem move_inv {s : St} {lost : List Nat} (h : Inv s lost) {i j : Nat} {v : Var} (hj : s.vars j = some v) :
    Inv { s with vars := upd (upd s.vars i (some v)) j (some ⟨initializerFd, STATUS_SUCCESS⟩) } ((owner s i).toList ++ lost) := by
  refine ⟨?_, h.fresh, h.tabFresh, h.tabInj, h.zero, h.minus, ?_⟩
  · refine ((h.book.forget i).receive j).congr ?_
    intro k
    by_cases hkj : k = j
    · subst hkj
      rw [upd_self]
      unfold owner
      simp only [upd_self, initializerFd, h.zero]
    · rw [upd_ne _ _ hkj]
      by_cases hki : k = i
      · subst hki
        rw [upd_self]
        unfold owner
        simp only [upd_ne _ _ hkj, upd_self, hj]
      · rw [upd_ne _ _ hki]
        unfold owner
        simp only [upd_ne _ _ hkj, upd_ne _ _ hki]
  · intro k x hk
    by_cases hkj : k = j
    · subst hkj
      simp only [upd_self, Option.some.injEq] at hk
      subst hk
      exact .inr (.inl rfl)
    · simp only [upd_ne _ _ hkj] at hk
      by_cases hki : k = i
      · subst hki
        simp only [upd_self, Option.some.injEq] at hk
        subst hk
        exact h.varsOk j v hj
      · simp only [upd_ne _ _ hki] at hk
        exact h.varsOk k x hk

/-- A socket the system has just made, put into a variable responsible for nothing. -/
theorem make_inv {s : St} {lost : List Nat} (h : Inv s lost) {i : Nat} {d : Int} {w : Var} (hi : owner s i = none) (htd : s.tab d = none) (hd : 0 ≤ d)
    (hw : w.fd = d) :
    Inv { vars := upd s.vars i (some w), tab := upd s.tab d (some (.ours s.next)), next := s.next + 1,
          log := .made s.next :: s.log } lost := by
  have h1 : .made s.next ∉ s.log := fun hm => Nat.lt_irrefl _ (h.fresh _ hm)
  have hd0 : d ≠ 0 := by intro e; subst e; rw [h.zero] at htd; cases htd
  have hdm : d ≠ -1 := by omega
  have hother : ∀ k x, s.vars k = some x → x.fd ≠ d := by
    intro k x hx he
    rcases h.varsOk k x hx with e | e | ⟨r, e⟩
    · omega
    · omega
    · rw [he, htd] at e; cases e
  refine ⟨?_, ?_, ?_, ?_, ?_, ?_, ?_⟩
  · refine (h.book.make (i := i) hi h1).congr ?_
    intro k
    by_cases hk : k = i
    · subst hk
      rw [upd_self]
      unfold owner
      simp only [upd_self, hw]
    · rw [upd_ne _ _ hk]
      unfold owner
      simp only [upd_ne _ _ hk]
      cases hx : s.vars k with
      | none => rfl
      | some x => simp only [upd_ne _ _ (hother k x hx)]
  · intro r hr
    rcases List.mem_cons.mp hr with e | e
    · injection e with e; subst e; exact Nat.lt_succ_self _
    · exact Nat.lt_succ_of_lt (h.fresh r e)
  · intro e r he
    by_cases hed : e = d
    · subst hed
      simp only [upd_self, Option.some.injEq, Holder.ours.injEq] at he
      subst he
      exact Nat.lt_succ_self _
    · simp only [upd_ne _ _ hed] at he
      exact Nat.lt_succ_of_lt (h.tabFresh e r he)
  · intro e f r he hf
    by_cases hed : e = d
    · by_cases hfd : f = d
      · rw [hed, hfd]
      · subst hed
        simp only [upd_self, Option.some.injEq, Holder.ours.injEq] at he
        simp only [upd_ne _ _ hfd] at hf
        have := h.tabFresh f r hf
        omega
    · by_cases hfd : f = d
      · subst hfd
        simp only [upd_self, Option.some.injEq, Holder.ours.injEq] at hf
        simp only [upd_ne _ _ hed] at he
        have := h.tabFresh e r he
        omega
      · simp only [upd_ne _ _ hed] at he
        simp only [upd_ne _ _ hfd] at hf
        exact h.tabInj e f r he hf
  · simp only [upd_ne _ _ (fun e => hd0 e.symm)]; exact h.zero
  · simp only [upd_ne _ _ (fun e => hdm e.symm)]; exact h.minus
  · intro k x hk
    by_cases hki : k = i
    · subst hki
      simp only [upd_self, Option.some.injEq] at hk
      subst hk
      exact .inr (.inr ⟨s.next, by simp only [hw, upd_self]⟩)
    · simp only [upd_ne _ _ hki] at hk
      simp only [upd_ne _ _ (hother k x hk)]
      exact h.varsOk k x hk

theorem renew_inv {s : St} {lost : List Nat} (h : Inv s lost) {i : Nat} (hi : owner s i = none) {fd : Option Int} (rc : Int)
    (hd : ∀ d, fd = some d → 0 ≤ d ∧ s.tab d = none) : Inv (renew s i fd rc) lost := by
  cases fd with
  | some d => exact make_inv h hi (hd d rfl).2 (hd d rfl).1 rfl
  | none =>
    refine ⟨?_, h.fresh, h.tabFresh, h.tabInj, h.zero, h.minus, ?_⟩
    · refine h.book.congr ?_
      intro k
      by_cases hk : k = i
      · subst hk
        rw [hi]
        simp only [renew, owner, upd_self, invalidFd, h.minus]
      · simp only [renew, owner, upd_ne _ _ hk]
    · intro k x hk
      by_cases hki : k = i
      · subst hki
        simp only [renew, upd_self, Option.some.injEq] at hk
        subst hk
        exact .inl rfl
      · simp only [renew, upd_ne _ _ hki] at hk
        exact h.varsOk k x hk

theorem step_ok {c : Cls} {s : St} {lost : List Nat} (h : Inv s lost) {o : Op} (hp : pre s o) (hcare : ¬ ClosesZero c s o) :
    ∃ s', step c s o = .ok s' ∧ Inv s' (losing s o ++ lost) := by
  cases o with
  | create i fd =>
    cases fd with
    | none =>
      simp only [pre] at hp
      refine ⟨{ s with vars := upd s.vars i (some (construct c invalidFd)) }, by simp [step, hp], ?_⟩
      refine ⟨?_, h.fresh, h.tabFresh, h.tabInj, h.zero, h.minus, ?_⟩
      · refine h.book.congr ?_
        intro k
        by_cases hk : k = i
        · subst hk
          unfold owner
          simp only [upd_self, construct_fd, invalidFd, h.minus, hp]
        · unfold owner; simp only [upd_ne _ _ hk]
      · intro k x hk
        by_cases hki : k = i
        · subst hki
          simp only [upd_self, Option.some.injEq] at hk
          subst hk
          exact .inl (construct_fd c _)
        · simp only [upd_ne _ _ hki] at hk
          exact h.varsOk k x hk
    | some d =>
      obtain ⟨hi, htd, hd⟩ := hp
      exact ⟨_, by simp [step, hi]; rfl, make_inv h (by simp [owner, hi]) htd hd (construct_fd c d)⟩
  | setStatus i st =>
    simp only [pre] at hp
    obtain ⟨v, hv⟩ := Option.ne_none_iff_exists'.mp hp
    refine ⟨{ s with vars := upd s.vars i (some { v with status := st }) }, by simp [step, hv], ?_⟩
    refine ⟨?_, h.fresh, h.tabFresh, h.tabInj, h.zero, h.minus, ?_⟩
    · refine h.book.congr ?_
      intro k
      by_cases hk : k = i
      · subst hk; unfold owner; simp only [upd_self, hv]
      · unfold owner; simp only [upd_ne _ _ hk]
    · intro k x hk
      by_cases hki : k = i
      · subst hki
        simp only [upd_self, Option.some.injEq] at hk
        subst hk
        exact h.varsOk k v hv
      · simp only [upd_ne _ _ hki] at hk
        exact h.varsOk k x hk
  | disconnect i =>
    simp only [pre] at hp
    obtain ⟨v, hv⟩ := Option.ne_none_iff_exists'.mp hp
    have hz : v.fd ≠ 0 := by
      intro e
      apply hcare
      simp [ClosesZero, hv, e]
    exact ⟨closed s i v, by simp [step, hv], closed_inv h hv hz⟩
  | reconnect i fd rc =>
    have hsys : ∀ d, fd = some d → 0 ≤ d ∧ (s.tab d = none ∨ (s.vars i).map Var.fd = some d) := by
      intro d hd
      subst hd
      exact hp.2
    replace hp : s.vars i ≠ none := by
      cases fd with
      | none => exact hp
      | some d => exact hp.1
    obtain ⟨v, hv⟩ := Option.ne_none_iff_exists'.mp hp
    have hz : v.fd ≠ 0 := by
      intro e
      apply hcare
      simp [ClosesZero, hv, e]
    have hinv := closed_inv h hv hz
    have hfd := (close_inv h hv hz (w := none) (by simp)).2
    by_cases hf : v.fd = invalidFd
    · refine ⟨renew s i fd rc, by simp [step, hv, hf], renew_inv h (owner_none_of_special h hv (.inl hf)) rc ?_⟩
      intro d hd
      obtain ⟨h1, h2⟩ := hsys d hd
      refine ⟨h1, h2.resolve_right ?_⟩
      intro h3
      simp [hv, hf, invalidFd] at h3
      omega
    · by_cases hs : (destroy s.tab s.log v.fd).2.2.2 < 0
      · exact ⟨closed s i v, by simp [step, hv, hf, hs], hinv⟩
      · refine ⟨renew (closed s i v) i fd rc, by simp [step, hv, hf, hs], renew_inv hinv ?_ rc ?_⟩
        · exact owner_none_of_special hinv (v := ⟨(destroy s.tab s.log v.fd).2.2.1, (destroy s.tab s.log v.fd).2.2.2⟩)
            (by simp [closed]) (.inl hfd)
        · intro d hd
          obtain ⟨h1, h2⟩ := hsys d hd
          refine ⟨h1, ?_⟩
          rcases h.varsOk i v hv with e | e | ⟨r, e⟩
          · exact absurd e hf
          · exact absurd e hz
          · have hdd : destroy s.tab s.log v.fd = (upd s.tab v.fd none, .closed r :: s.log, invalidFd, STATUS_SUCCESS) := by
              unfold destroy; rw [e]
            simp only [closed, hdd]
            by_cases hdv : d = v.fd
            · subst hdv; simp
            · rw [upd_ne _ _ hdv]
              rcases h2 with h2 | h2
              · exact h2
              · simp [hv] at h2; exact absurd h2.symm hdv
  | moveCtor i j =>
    obtain ⟨hi, hj⟩ := hp
    obtain ⟨v, hv⟩ := Option.ne_none_iff_exists'.mp hj
    have hm := move_inv h (i := i) hv
    rw [show owner s i = none by simp [owner, hi]] at hm
    exact ⟨_, by simp [step, hi, hv], hm⟩
  | moveAssign i j =>
    obtain ⟨hi, hj⟩ := hp
    obtain ⟨v, hv⟩ := Option.ne_none_iff_exists'.mp hj
    obtain ⟨u, hu⟩ := Option.ne_none_iff_exists'.mp hi
    exact ⟨_, by simp [step, hu, hv], move_inv h hv⟩
  | drop i =>
    simp only [pre] at hp
    obtain ⟨v, hv⟩ := Option.ne_none_iff_exists'.mp hp
    by_cases hc : closes c v = true
    · have hz : v.fd ≠ 0 := by
        cases c with
        | base =>
          intro e
          apply hcare
          simp [ClosesZero, hv, e]
        | client => simpa [closes, initializerFd] using hc
      exact ⟨_, by simp [step, hv, hc], (close_inv h hv hz (w := none) (by simp)).1⟩
    · refine ⟨{ s with vars := upd s.vars i none }, by simp [step, hv, hc], ?_⟩
      have hf : v.fd = -1 ∨ v.fd = 0 := by
        cases c with
        | base =>
          left
          simp [closes, valid, invalidFd] at hc
          exact hc.1.symm
        | client =>
          right
          simpa [closes, initializerFd] using hc
      refine ⟨?_, h.fresh, h.tabFresh, h.tabInj, h.zero, h.minus, ?_⟩
      · refine h.book.congr ?_
        intro k
        by_cases hk : k = i
        · subst hk
          rw [owner_none_of_special h hv hf]
          unfold owner
          simp only [upd_self]
        · unfold owner; simp only [upd_ne _ _ hk]
      · intro k x hk
        by_cases hki : k = i
        · subst hki; simp at hk
        · simp only [upd_ne _ _ hki] at hk
          exact h.varsOk k x hk

theorem not_proper {l : List Ev} (h : Ev.closedForeign ∈ l) : ¬ Proper l := by
  induction l with
  | nil => cases h
  | cons e l ih =>
    rcases List.mem_cons.mp h with h | h
    · subst h; exact id
    · have := ih h
      cases e <;> simp_all [Proper]

/-- What happened stays on record. -/
theorem step_log {c : Cls} {s s' : St} {o : Op} (h : step c s o = .ok s') {e : Ev} (he : e ∈ s.log) : e ∈ s'.log := by
  have hd : ∀ fd, e ∈ (destroy s.tab s.log fd).2.1 := by
    intro fd; unfold destroy; split <;> exact List.mem_cons_of_mem _ he
  cases o with
  | create i fd =>
    cases hv : s.vars i <;> cases fd <;> simp only [step, hv, Res.ok.injEq, reduceCtorEq] at h <;> subst h <;> simp [he]
  | setStatus i st => cases hv : s.vars i <;> simp only [step, hv, Res.ok.injEq, reduceCtorEq] at h; subst h; exact he
  | disconnect i => cases hv : s.vars i <;> simp only [step, hv, Res.ok.injEq, reduceCtorEq] at h; subst h; exact hd _
  | reconnect i fd rc =>
    cases hv : s.vars i with
    | none => simp only [step, hv, reduceCtorEq] at h
    | some v =>
      simp only [step, hv] at h
      split at h
      · split at h
        · injection h with h; subst h; exact hd _
        · injection h with h; subst h
          cases fd with
          | none => exact hd _
          | some d => exact List.mem_cons_of_mem _ (hd _)
      · injection h with h; subst h
        cases fd with
        | none => exact he
        | some d => exact List.mem_cons_of_mem _ he
  | moveCtor i j => cases hv : s.vars i <;> cases hw : s.vars j <;> simp only [step, hv, hw, Res.ok.injEq, reduceCtorEq] at h; subst h; exact he
  | moveAssign i j => cases hv : s.vars i <;> cases hw : s.vars j <;> simp only [step, hv, hw, Res.ok.injEq, reduceCtorEq] at h; subst h; exact he
  | drop i =>
    cases hv : s.vars i with
    | none => simp only [step, hv, reduceCtorEq] at h
    | some v =>
      simp only [step, hv] at h
      split at h
      · injection h with h; subst h; exact hd _
      · injection h with h; subst h; exact he

/-- The first call on a moved-from object that closes it closes something that is not the library's. -/
theorem step_zero {c : Cls} {s s' : St} {o : Op} (h0 : s.tab 0 = some .foreign) (hz : ClosesZero c s o) (h : step c s o = .ok s') :
    Ev.closedForeign ∈ s'.log := by
  have hd : destroy s.tab s.log 0 = (upd s.tab 0 none, .closedForeign :: s.log, invalidFd, STATUS_SUCCESS) := by
    unfold destroy; rw [h0]
  cases o with
  | disconnect i =>
    obtain ⟨v, hv, e⟩ := Option.map_eq_some_iff.mp (show (s.vars i).map Var.fd = some 0 from hz)
    simp only [step, hv, Res.ok.injEq] at h
    subst h
    simp [closed, e, hd]
  | reconnect i fd rc =>
    obtain ⟨v, hv, e⟩ := Option.map_eq_some_iff.mp (show (s.vars i).map Var.fd = some 0 from hz)
    have h1 : (0 : Int) ≠ invalidFd := by decide
    have h2 : ¬ STATUS_SUCCESS < 0 := by decide
    simp only [step, hv, e, hd, h1, ne_eq, not_false_eq_true, if_true, h2, if_false, Res.ok.injEq] at h
    subst h
    cases fd <;> simp [renew, closed, e, hd]
  | drop i =>
    obtain ⟨rfl, hz⟩ := hz
    obtain ⟨v, hv, e⟩ := Option.map_eq_some_iff.mp hz
    have hc : closes .base v = true := by simp [closes, valid, e, invalidFd]
    simp only [step, hv, hc, if_true, e, hd, Res.ok.injEq] at h
    subst h
    simp
  | create i fd => exact hz.elim
  | setStatus i st => exact hz.elim
  | moveCtor i j => exact hz.elim
  | moveAssign i j => exact hz.elim

theorem defined {c : Cls} {s : St} {o : Op} (hp : pre s o) : ∃ s', step c s o = .ok s' := by
  cases o with
  | create i fd =>
    cases fd with
    | none => exact ⟨_, by simp only [step, show s.vars i = none from hp]; rfl⟩
    | some d => exact ⟨_, by simp only [step, show s.vars i = none from hp.1]; rfl⟩
  | reconnect i fd rc =>
    have h1 : s.vars i ≠ none := by
      cases fd with
      | none => exact hp
      | some d => exact hp.1
    obtain ⟨v, hv⟩ := Option.ne_none_iff_exists'.mp h1
    simp only [step, hv]
    split
    · split <;> exact ⟨_, rfl⟩
    · exact ⟨_, rfl⟩
  | moveCtor i j =>
    obtain ⟨v, hv⟩ := Option.ne_none_iff_exists'.mp hp.2
    exact ⟨_, by simp only [step, hp.1, hv]; rfl⟩
  | moveAssign i j =>
    obtain ⟨v, hv⟩ := Option.ne_none_iff_exists'.mp hp.2
    obtain ⟨u, hu⟩ := Option.ne_none_iff_exists'.mp hp.1
    exact ⟨_, by simp only [step, hu, hv]; rfl⟩
  | setStatus i st =>
    obtain ⟨v, hv⟩ := Option.ne_none_iff_exists'.mp (show s.vars i ≠ none from hp)
    exact ⟨_, by simp only [step, hv]; rfl⟩
  | disconnect i =>
    obtain ⟨v, hv⟩ := Option.ne_none_iff_exists'.mp (show s.vars i ≠ none from hp)
    exact ⟨_, by simp only [step, hv]; rfl⟩
  | drop i =>
    obtain ⟨v, hv⟩ := Option.ne_none_iff_exists'.mp (show s.vars i ≠ none from hp)
    simp only [step, hv]
    split <;> exact ⟨_, rfl⟩

theorem hist_inv {c : Cls} {t : Int → Bool} (h0 : t 0 = true) (h1 : t (-1) = false) {s : St} {lost : List Nat} {bad : Bool}
    (h : Hist c t s lost bad) : if bad then Ev.closedForeign ∈ s.log else Inv s lost := by
  induction h with
  | start => exact inv_start h0 h1
  | @step s s' lost bad o _ hp hs ih =>
    cases bad with
    | true => exact step_log hs ih
    | false =>
      by_cases hz : ClosesZero c s o
      · have hi : Inv s lost := ih
        simpa [hz] using step_zero hi.zero hz hs
      · obtain ⟨u, hu, hi⟩ := step_ok (c := c) ih hp hz
        rw [hs] at hu
        injection hu with hu
        subst hu
        simpa [hz] using hi

/-- For the examples. -/
def run (c : Cls) : St × List Nat × Bool → List Op → Option (St × List Nat × Bool)
  | x, [] => some x
  | (s, lost, bad), o :: os => if pre s o then match step c s o with
      | .ok s' => run c (s', losing s o ++ lost, bad || decide (ClosesZero c s o)) os
      | _ => none
    else none

theorem Hist.of_run {c : Cls} {t : Int → Bool} {x : St × List Nat × Bool} (h : Hist c t x.1 x.2.1 x.2.2) {os : List Op} {y : St × List Nat × Bool}
    (e : run c x os = some y) : Hist c t y.1 y.2.1 y.2.2 := by
  induction os generalizing x with
  | nil => simp only [run, Option.some.injEq] at e; subst e; exact h
  | cons o os ih =>
    obtain ⟨s, lost, bad⟩ := x
    simp only [run] at e
    split at e
    · rename_i hp
      split at e
      · rename_i s' hs
        exact ih (h.step hp hs) e
      · cases e
    · cases e

theorem Hist.witness {β : Type} {c : Cls} {t : Int → Bool} {lost : List Nat} {bad : Bool} (os : List Op) (f : St → β) (b : β)
    (e : (run c (Sock.start t, [], false) os).map (fun y => (y.2, f y.1)) = some ((lost, bad), b)) : ∃ s, Hist c t s lost bad ∧ f s = b := by
  obtain ⟨y, hy, he⟩ := Option.map_eq_some_iff.mp e
  have h := Hist.of_run (x := (Sock.start t, [], false)) .start hy
  injection he with h1 h2
  rw [h1] at h
  exact ⟨y.1, h, h2⟩

end Flame.SockSpec

namespace Flame
open Own

/-- **C42, exactly.**  For network objects of either class and every history whatever, in a process whose standard input is open: every further call is defined; something that is not the library's is
closed — and the log of closings is not proper — exactly if some call disconnected, reconnected or (other than an accepted connection) destroyed an object that was moved from; and
otherwise the open sockets are those held by exactly one object and those lost by assigning to the object that held them, so that when all objects are gone
every socket was closed exactly once if and only if no object that held a socket was assigned to. -/
theorem C42_history_exact {c : Sock.Cls} {t : Int → Bool} (h0 : t 0 = true) (h1 : t (-1) = false) {s : Sock.St} {lost : List Nat} {bad : Bool}
    (h : SockSpec.Hist c t s lost bad) :
    (∀ o, Sock.pre s o → ∃ s', Sock.step c s o = .ok s') ∧
    (.closedForeign ∈ s.log ↔ bad = true) ∧ (Proper s.log ↔ bad = false) ∧
    (bad = false →
      (∀ r, Live r s.log ↔ (∃ i, Sock.owner s i = some r) ∨ r ∈ lost) ∧
      (∀ i j r, Sock.owner s i = some r → Sock.owner s j = some r → i = j) ∧
      ((∀ i, s.vars i = none) → (∀ r, Live r s.log ↔ r ∈ lost) ∧ (ReleasedOnce s.log ↔ lost = []))) := by
  have hi := SockSpec.hist_inv h0 h1 h
  refine ⟨fun o ho => SockSpec.defined ho, ?_⟩
  cases bad with
  | true =>
    have hf : Ev.closedForeign ∈ s.log := hi
    simp [hf, SockSpec.not_proper hf]
  | false =>
    have hv : SockSpec.Inv s lost := hi
    obtain ⟨a, b, d⟩ := hv.book.exact
    have hn : Ev.closedForeign ∉ s.log := fun hf => SockSpec.not_proper hf a
    simp only [hn, a, Bool.false_eq_true, true_and, forall_const]
    exact ⟨b, hv.book.unique, fun hg => d fun i => by simp [Sock.owner, hg i]⟩

-- one socket is lost by an assignment, one by assigning to itself; nothing foreign is closed
example : ∃ s, SockSpec.Hist .base (fun d => d == 0 || d == 1 || d == 2) s [0, 1] false ∧
    (s.log, Sock.owner s 0) = ([.made 3, .closed 2, .made 2, .made 1, .made 0], some 3) :=
  SockSpec.Hist.witness [.create 0 (some 3), .create 1 (some 4), .create 2 (some 5), .moveAssign 1 1, .moveAssign 0 2, .reconnect 0 (some 5) 0] _ _ (by decide +kernel)

-- destroying a moved-from object closes descriptor 0, which the next socket then gets
example : ∃ s, SockSpec.Hist .base (fun d => d == 0 || d == 1 || d == 2) s [] true ∧
    (s.log, s.tab 0) = ([.made 1, .closedForeign, .made 0], some (.ours 1)) :=
  SockSpec.Hist.witness [.create 0 (some 3), .moveCtor 1 0, .drop 0, .create 0 (some 0)] _ _ (by decide +kernel)

-- an accepted connection may be destroyed after it was moved from
example : ∃ s, SockSpec.Hist .client (fun d => d == 0 || d == 1 || d == 2) s [] false ∧ (s.log, s.vars 0, s.vars 1) = ([.closed 0, .made 0], none, none) :=
  SockSpec.Hist.witness [.create 0 (some 3), .moveCtor 1 0, .drop 0, .drop 1] _ _ (by decide +kernel)

end Flame
