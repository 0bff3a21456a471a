import Verif.Own.Socket

/-! # C42: every socket is closed exactly once and nothing else is closed -/

namespace Flame.Own.Sock

structure Inv (s : St) : Prop where
  ledger : Ledger (owner s) s.log
  fresh : ∀ r, .made r ∈ s.log → r < s.next
  tabFresh : ∀ d r, s.tab d = some (.ours r) → r < s.next
  tabInj : ∀ d e r, s.tab d = some (.ours r) → s.tab e = some (.ours r) → d = e
  /-- standard input stays open and foreign -/
  zero : s.tab 0 = some .foreign
  minus : s.tab (-1) = none
  varsOk : ∀ i v, s.vars i = some v → v.fd = -1 ∨ v.fd = 0 ∨ ∃ r, s.tab v.fd = some (.ours r)

theorem inv_start {t : Int → Bool} (h0 : t 0 = true) (h1 : t (-1) = false) : Inv (start t) := by
  refine ⟨Ledger.init.congr (by intro i; rfl), by simp [start], ?_, ?_, by simp [start, h0], by simp [start, h1],
    by simp [start]⟩
  · intro d r h
    simp only [start] at h
    split at h <;> cases h
  · intro d e r h
    simp only [start] at h
    split at h <;> cases h

theorem owner_some {s : St} {i r : Nat} : owner s i = some r ↔ ∃ v, s.vars i = some v ∧ s.tab v.fd = some (.ours r) := by
  unfold owner
  cases h : s.vars i with
  | none => simp
  | some v =>
    simp only [Option.some.injEq, exists_eq_left']
    cases h' : s.tab v.fd with
    | none => simp
    | some x => cases x <;> simp

theorem owner_none_of_special {s : St} (h : Inv s) {i : Nat} {v : Var} (hv : s.vars i = some v)
    (hf : v.fd = -1 ∨ v.fd = 0) : owner s i = none := by
  unfold owner
  rw [hv]
  simp only
  rcases hf with e | e
  · rw [e, h.minus]
  · rw [e, h.zero]

/-- Closing the descriptor of variable `i`, which then no longer refers to it. -/
theorem close_inv {s : St} (h : Inv s) {i : Nat} {v : Var} (hv : s.vars i = some v) (hz : v.fd ≠ 0)
    {w : Option Var} (hw : ∀ x, w = some x → x.fd = -1) :
    Inv { s with vars := upd s.vars i w, tab := (destroy s.tab s.log v.fd).1, log := (destroy s.tab s.log v.fd).2.1 } ∧
      ((destroy s.tab s.log v.fd).2.2.1 = -1) := by
  rcases h.varsOk i v hv with e | e | ⟨r, e⟩
  · have hd : destroy s.tab s.log v.fd = (s.tab, .closedNothing :: s.log, v.fd, -9) := by
      unfold destroy; rw [e, h.minus]
    rw [hd]
    refine ⟨⟨?_, ?_, h.tabFresh, h.tabInj, h.zero, h.minus, ?_⟩, e⟩
    · refine h.ledger.nothing.congr ?_
      intro k
      by_cases hk : k = i
      · subst hk
        rw [owner_none_of_special h hv (.inl e)]
        unfold owner
        simp only [upd_self]
        cases w with
        | none => rfl
        | some x => simp only [hw x rfl, h.minus]
      · unfold owner; simp only [upd_ne _ _ hk]
    · intro r hr; exact h.fresh r (by simpa using hr)
    · intro k x hk
      by_cases hki : k = i
      · subst hki
        simp only [upd_self] at hk
        exact .inl (hw x hk)
      · simp only [upd_ne _ _ hki] at hk
        exact h.varsOk k x hk
  · exact absurd e hz
  · have hd : destroy s.tab s.log v.fd = (upd s.tab v.fd none, .closed r :: s.log, invalidFd, STATUS_SUCCESS) := by
      unfold destroy; rw [e]
    rw [hd]
    have ho : owner s i = some r := owner_some.mpr ⟨v, hv, e⟩
    have hm : v.fd ≠ -1 := by intro e'; rw [e', h.minus] at e; cases e
    -- no other variable has this descriptor
    have hother : ∀ k x, k ≠ i → s.vars k = some x → x.fd ≠ v.fd := by
      intro k x hk hx he
      exact hk (h.ledger.unique k i r (owner_some.mpr ⟨x, hx, by rw [he]; exact e⟩) ho)
    refine ⟨⟨?_, ?_, ?_, ?_, ?_, ?_, ?_⟩, rfl⟩
    · refine (h.ledger.close ho).congr ?_
      intro k
      by_cases hk : k = i
      · subst hk
        rw [upd_self]
        unfold owner
        simp only [upd_self]
        cases w with
        | none => rfl
        | some x =>
          simp only [hw x rfl]
          rw [upd_ne _ _ (fun e' => hm e'.symm), h.minus]
      · rw [upd_ne _ _ hk]
        unfold owner
        simp only [upd_ne _ _ hk]
        cases hx : s.vars k with
        | none => rfl
        | some x => simp only [upd_ne _ _ (hother k x hk hx)]
    · intro q hq; exact h.fresh q (by simpa using hq)
    · intro d q hd
      by_cases hdf : d = v.fd
      · subst hdf; simp at hd
      · simp only [upd_ne _ _ hdf] at hd; exact h.tabFresh d q hd
    · intro d d' q h1 h2
      by_cases hdf : d = v.fd
      · subst hdf; simp at h1
      · by_cases hdf' : d' = v.fd
        · subst hdf'; simp at h2
        · simp only [upd_ne _ _ hdf] at h1
          simp only [upd_ne _ _ hdf'] at h2
          exact h.tabInj d d' q h1 h2
    · simp only [upd_ne _ _ (fun e' => hz e'.symm)]; exact h.zero
    · simp only [upd_ne _ _ (fun e' => hm e'.symm)]; exact h.minus
    · intro k x hk
      by_cases hki : k = i
      · subst hki
        simp only [upd_self] at hk
        exact .inl (hw x hk)
      · simp only [upd_ne _ _ hki] at hk
        simp only [upd_ne _ _ (hother k x hki hk)]
        exact h.varsOk k x hk

theorem closed_inv {s : St} (h : Inv s) {i : Nat} {v : Var} (hv : s.vars i = some v) (hz : v.fd ≠ 0) : Inv (closed s i v) := by
  have hfd := (close_inv h hv hz (w := none) (by simp)).2
  exact (close_inv h hv hz (w := some _) (by intro x hx; injection hx with hx; subst hx; exact hfd)).1

/-- A move between two different variables, the receiver responsible for nothing. -/
theorem move_inv {s : St} (h : Inv s) {i j : Nat} {v : Var} (hij : i ≠ j) (hi : owner s i = none)
    (hj : s.vars j = some v) :
    Inv { s with vars := upd (upd s.vars i (some v)) j (some ⟨initializerFd, STATUS_SUCCESS⟩) } := by
  refine ⟨?_, h.fresh, h.tabFresh, h.tabInj, h.zero, h.minus, ?_⟩
  · refine (h.ledger.move hi hij).congr ?_
    intro k
    by_cases hkj : k = j
    · subst hkj
      rw [upd_self]
      unfold owner
      simp only [upd_self, initializerFd, h.zero]
    · rw [upd_ne _ _ hkj]
      by_cases hki : k = i
      · subst hki
        rw [upd_self]
        unfold owner
        simp only [upd_ne _ _ hkj, upd_self, hj]
      · rw [upd_ne _ _ hki]
        unfold owner
        simp only [upd_ne _ _ hkj, upd_ne _ _ hki]
  · intro k x hk
    by_cases hkj : k = j
    · subst hkj
      simp only [upd_self, Option.some.injEq] at hk
      subst hk
      exact .inr (.inl rfl)
    · simp only [upd_ne _ _ hkj] at hk
      by_cases hki : k = i
      · subst hki
        simp only [upd_self, Option.some.injEq] at hk
        subst hk
        exact h.varsOk j v hj
      · simp only [upd_ne _ _ hki] at hk
        exact h.varsOk k x hk

theorem construct_fd (c : Cls) (d : Int) : (construct c d).fd = d := by
  cases c with
  | base => simp only [construct, ctor]; split <;> rfl
  | client => rfl

/-- A socket the system has just made, put into a variable responsible for nothing. -/
theorem make_inv {s : St} (h : Inv s) {i : Nat} {d : Int} {w : Var} (hi : owner s i = none) (htd : s.tab d = none) (hd : 0 ≤ d)
    (hw : w.fd = d) :
    Inv { vars := upd s.vars i (some w), tab := upd s.tab d (some (.ours s.next)), next := s.next + 1,
          log := .made s.next :: s.log } := by
  have h1 : .made s.next ∉ s.log := fun hm => Nat.lt_irrefl _ (h.fresh _ hm)
  have h2 : .closed s.next ∉ s.log := fun hc => h1 (closed_made h.ledger.proper hc)
  have hd0 : d ≠ 0 := by intro e; subst e; rw [h.zero] at htd; cases htd
  have hdm : d ≠ -1 := by omega
  have hother : ∀ k x, s.vars k = some x → x.fd ≠ d := by
    intro k x hx he
    rcases h.varsOk k x hx with e | e | ⟨r, e⟩
    · omega
    · omega
    · rw [he, htd] at e; cases e
  refine ⟨?_, ?_, ?_, ?_, ?_, ?_, ?_⟩
  · refine (h.ledger.make (i := i) hi h1 h2).congr ?_
    intro k
    by_cases hk : k = i
    · subst hk
      rw [upd_self]
      unfold owner
      simp only [upd_self, hw]
    · rw [upd_ne _ _ hk]
      unfold owner
      simp only [upd_ne _ _ hk]
      cases hx : s.vars k with
      | none => rfl
      | some x => simp only [upd_ne _ _ (hother k x hx)]
  · intro r hr
    rcases List.mem_cons.mp hr with e | e
    · injection e with e; subst e; exact Nat.lt_succ_self _
    · exact Nat.lt_succ_of_lt (h.fresh r e)
  · intro e r he
    by_cases hed : e = d
    · subst hed
      simp only [upd_self, Option.some.injEq, Holder.ours.injEq] at he
      subst he
      exact Nat.lt_succ_self _
    · simp only [upd_ne _ _ hed] at he
      exact Nat.lt_succ_of_lt (h.tabFresh e r he)
  · intro e f r he hf
    by_cases hed : e = d
    · by_cases hfd : f = d
      · rw [hed, hfd]
      · subst hed
        simp only [upd_self, Option.some.injEq, Holder.ours.injEq] at he
        simp only [upd_ne _ _ hfd] at hf
        have := h.tabFresh f r hf
        omega
    · by_cases hfd : f = d
      · subst hfd
        simp only [upd_self, Option.some.injEq, Holder.ours.injEq] at hf
        simp only [upd_ne _ _ hed] at he
        have := h.tabFresh e r he
        omega
      · simp only [upd_ne _ _ hed] at he
        simp only [upd_ne _ _ hfd] at hf
        exact h.tabInj e f r he hf
  · simp only [upd_ne _ _ (fun e => hd0 e.symm)]; exact h.zero
  · simp only [upd_ne _ _ (fun e => hdm e.symm)]; exact h.minus
  · intro k x hk
    by_cases hki : k = i
    · subst hki
      simp only [upd_self, Option.some.injEq] at hk
      subst hk
      exact .inr (.inr ⟨s.next, by simp only [hw, upd_self]⟩)
    · simp only [upd_ne _ _ hki] at hk
      simp only [upd_ne _ _ (hother k x hk)]
      exact h.varsOk k x hk

theorem renew_inv {s : St} (h : Inv s) {i : Nat} (hi : owner s i = none) {fd : Option Int} (rc : Int)
    (hd : ∀ d, fd = some d → 0 ≤ d ∧ s.tab d = none) : Inv (renew s i fd rc) := by
  cases fd with
  | some d => exact make_inv h hi (hd d rfl).2 (hd d rfl).1 rfl
  | none =>
    refine ⟨?_, h.fresh, h.tabFresh, h.tabInj, h.zero, h.minus, ?_⟩
    · refine h.ledger.congr ?_
      intro k
      by_cases hk : k = i
      · subst hk
        rw [hi]
        simp only [renew, owner, upd_self, invalidFd, h.minus]
      · simp only [renew, owner, upd_ne _ _ hk]
    · intro k x hk
      by_cases hki : k = i
      · subst hki
        simp only [renew, upd_self, Option.some.injEq] at hk
        subst hk
        exact .inl rfl
      · simp only [renew, upd_ne _ _ hki] at hk
        exact h.varsOk k x hk

theorem step_ok {c : Cls} {s : St} (h : Inv s) {o : Op} (hp : careful c s o) : ∃ s', step c s o = .ok s' ∧ Inv s' := by
  obtain ⟨hp, hcare⟩ := hp
  cases o with
  | create i fd =>
    cases fd with
    | none =>
      simp only [pre] at hp
      refine ⟨{ s with vars := upd s.vars i (some (construct c invalidFd)) }, by simp [step, hp], ?_⟩
      refine ⟨?_, h.fresh, h.tabFresh, h.tabInj, h.zero, h.minus, ?_⟩
      · refine h.ledger.congr ?_
        intro k
        by_cases hk : k = i
        · subst hk
          unfold owner
          simp only [upd_self, construct_fd, invalidFd, h.minus, hp]
        · unfold owner; simp only [upd_ne _ _ hk]
      · intro k x hk
        by_cases hki : k = i
        · subst hki
          simp only [upd_self, Option.some.injEq] at hk
          subst hk
          exact .inl (construct_fd c _)
        · simp only [upd_ne _ _ hki] at hk
          exact h.varsOk k x hk
    | some d =>
      obtain ⟨hi, htd, hd⟩ := hp
      exact ⟨_, by simp [step, hi]; rfl, make_inv h (by simp [owner, hi]) htd hd (construct_fd c d)⟩
  | setStatus i st =>
    simp only [pre] at hp
    obtain ⟨v, hv⟩ := Option.ne_none_iff_exists'.mp hp
    refine ⟨{ s with vars := upd s.vars i (some { v with status := st }) }, by simp [step, hv], ?_⟩
    refine ⟨?_, h.fresh, h.tabFresh, h.tabInj, h.zero, h.minus, ?_⟩
    · refine h.ledger.congr ?_
      intro k
      by_cases hk : k = i
      · subst hk; unfold owner; simp only [upd_self, hv]
      · unfold owner; simp only [upd_ne _ _ hk]
    · intro k x hk
      by_cases hki : k = i
      · subst hki
        simp only [upd_self, Option.some.injEq] at hk
        subst hk
        exact h.varsOk k v hv
      · simp only [upd_ne _ _ hki] at hk
        exact h.varsOk k x hk
  | disconnect i =>
    simp only [pre] at hp
    obtain ⟨v, hv⟩ := Option.ne_none_iff_exists'.mp hp
    have hz : v.fd ≠ 0 := by
      intro e
      apply hcare
      simp [hv, e, initializerFd]
    exact ⟨closed s i v, by simp [step, hv], closed_inv h hv hz⟩
  | reconnect i fd rc =>
    have hsys : ∀ d, fd = some d → 0 ≤ d ∧ (s.tab d = none ∨ (s.vars i).map Var.fd = some d) := by
      intro d hd
      subst hd
      exact hp.2
    replace hp : s.vars i ≠ none := by
      cases fd with
      | none => exact hp
      | some d => exact hp.1
    obtain ⟨v, hv⟩ := Option.ne_none_iff_exists'.mp hp
    have hz : v.fd ≠ 0 := by
      intro e
      apply hcare
      simp [hv, e, initializerFd]
    have hinv := closed_inv h hv hz
    have hfd := (close_inv h hv hz (w := none) (by simp)).2
    by_cases hf : v.fd = invalidFd
    · refine ⟨renew s i fd rc, by simp [step, hv, hf], renew_inv h (owner_none_of_special h hv (.inl hf)) rc ?_⟩
      intro d hd
      obtain ⟨h1, h2⟩ := hsys d hd
      refine ⟨h1, h2.resolve_right ?_⟩
      intro h3
      simp [hv, hf, invalidFd] at h3
      omega
    · by_cases hs : (destroy s.tab s.log v.fd).2.2.2 < 0
      · exact ⟨closed s i v, by simp [step, hv, hf, hs], hinv⟩
      · refine ⟨renew (closed s i v) i fd rc, by simp [step, hv, hf, hs], renew_inv hinv ?_ rc ?_⟩
        · exact owner_none_of_special hinv (v := ⟨(destroy s.tab s.log v.fd).2.2.1, (destroy s.tab s.log v.fd).2.2.2⟩)
            (by simp [closed]) (.inl hfd)
        · intro d hd
          obtain ⟨h1, h2⟩ := hsys d hd
          refine ⟨h1, ?_⟩
          rcases h.varsOk i v hv with e | e | ⟨r, e⟩
          · exact absurd e hf
          · exact absurd e hz
          · have hdd : destroy s.tab s.log v.fd = (upd s.tab v.fd none, .closed r :: s.log, invalidFd, STATUS_SUCCESS) := by
              unfold destroy; rw [e]
            simp only [closed, hdd]
            by_cases hdv : d = v.fd
            · subst hdv; simp
            · rw [upd_ne _ _ hdv]
              rcases h2 with h2 | h2
              · exact h2
              · simp [hv] at h2; exact absurd h2.symm hdv
  | moveCtor i j =>
    obtain ⟨hi, hj⟩ := hp
    obtain ⟨v, hv⟩ := Option.ne_none_iff_exists'.mp hj
    have hij : i ≠ j := by intro e; subst e; exact hj hi
    exact ⟨_, by simp [step, hi, hv], move_inv h hij (by simp [owner, hi]) hv⟩
  | moveAssign i j =>
    obtain ⟨hi, hj⟩ := hp
    obtain ⟨ho, hij⟩ := hcare
    obtain ⟨v, hv⟩ := Option.ne_none_iff_exists'.mp hj
    obtain ⟨u, hu⟩ := Option.ne_none_iff_exists'.mp hi
    exact ⟨_, by simp [step, hu, hv], move_inv h hij ho hv⟩
  | drop i =>
    simp only [pre] at hp
    obtain ⟨v, hv⟩ := Option.ne_none_iff_exists'.mp hp
    by_cases hc : closes c v = true
    · have hz : v.fd ≠ 0 := by
        cases c with
        | base =>
          intro e
          apply hcare rfl
          simp [hv, e, initializerFd]
        | client => simpa [closes, initializerFd] using hc
      exact ⟨_, by simp [step, hv, hc], (close_inv h hv hz (w := none) (by simp)).1⟩
    · refine ⟨{ s with vars := upd s.vars i none }, by simp [step, hv, hc], ?_⟩
      have hf : v.fd = -1 ∨ v.fd = 0 := by
        cases c with
        | base =>
          left
          simp [closes, valid, invalidFd] at hc
          exact hc.1.symm
        | client =>
          right
          simpa [closes, initializerFd] using hc
      refine ⟨?_, h.fresh, h.tabFresh, h.tabInj, h.zero, h.minus, ?_⟩
      · refine h.ledger.congr ?_
        intro k
        by_cases hk : k = i
        · subst hk
          rw [owner_none_of_special h hv hf]
          unfold owner
          simp only [upd_self]
        · unfold owner; simp only [upd_ne _ _ hk]
      · intro k x hk
        by_cases hki : k = i
        · subst hki; simp at hk
        · simp only [upd_ne _ _ hki] at hk
          exact h.varsOk k x hk

theorem reach_inv {c : Cls} {t : Int → Bool} (h0 : t 0 = true) (h1 : t (-1) = false) {s : St}
    (h : Reach (step c) (careful c) (start t) s) : Inv s :=
  h.inv (inv_start h0 h1) (fun s o s' hi hp he => by
    obtain ⟨u, hu, hinv⟩ := step_ok hi hp
    rw [he] at hu
    injection hu with hu
    subst hu
    exact hinv)

end Flame.Own.Sock

namespace Flame
open Own

/-- **C42, the part that holds for `TcpClient`, `TcpServer`, `UdpClient`, `UdpServer`.** In every execution that
does not assign over a held socket and does not destroy a moved-from object: every close hits a socket of the
library that is open, each open socket is owned by exactly one object, nothing foreign is closed. -/
theorem C42_base_partial {t : Int → Bool} (h0 : t 0 = true) (h1 : t (-1) = false) {s : Sock.St}
    (h : Reach (Sock.step .base) (Sock.careful .base) (Sock.start t) s) :
    Ledger (Sock.owner s) s.log ∧ ∀ o, Sock.careful .base s o → ∃ s', Sock.step .base s o = .ok s' :=
  ⟨(Sock.reach_inv h0 h1 h).ledger, fun _ hp =>
    let ⟨s', hs, _⟩ := Sock.step_ok (Sock.reach_inv h0 h1 h) hp; ⟨s', hs⟩⟩

/-- **C42, the part that holds for accepted connections (`TcpServer::WithClient`).** The same, and destroying a
moved-from object is harmless. -/
theorem C42_client_partial {t : Int → Bool} (h0 : t 0 = true) (h1 : t (-1) = false) {s : Sock.St}
    (h : Reach (Sock.step .client) (Sock.careful .client) (Sock.start t) s) :
    Ledger (Sock.owner s) s.log ∧ ((∀ i, s.vars i = none) → ReleasedOnce s.log) ∧
    ∀ o, Sock.careful .client s o → ∃ s', Sock.step .client s o = .ok s' :=
  ⟨(Sock.reach_inv h0 h1 h).ledger,
    fun hg => (Sock.reach_inv h0 h1 h).ledger.releasedOnce (by intro i; simp [Sock.owner, hg i]),
    fun _ hp => let ⟨s', hs, _⟩ := Sock.step_ok (Sock.reach_inv h0 h1 h) hp; ⟨s', hs⟩⟩

/-- **C42.** When all `NetworkBase` objects are gone, every socket was closed exactly once (same executions). -/
theorem C42_base_once_partial {t : Int → Bool} (h0 : t 0 = true) (h1 : t (-1) = false) {s : Sock.St}
    (h : Reach (Sock.step .base) (Sock.careful .base) (Sock.start t) s) (hg : ∀ i, s.vars i = none) :
    ReleasedOnce s.log :=
  (Sock.reach_inv h0 h1 h).ledger.releasedOnce (by intro i; simp [Sock.owner, hg i])

/-- **C42 fails.** From any state whatsoever: moving a socket object and then destroying the moved-from object
closes descriptor 0 of the process. -/
theorem C42_move_closes_stdin (s : Sock.St) {i j : Nat} {v : Sock.Var} (hi : s.vars i = none)
    (hj : s.vars j = some v) (h0 : s.tab 0 = some .foreign) :
    ∃ s', runOps (Sock.step .base) s [.moveCtor i j, .drop j] = .ok s' ∧ s'.tab 0 = none ∧
      .closedForeign ∈ s'.log := by
  refine ⟨{ s with vars := upd (upd (upd s.vars i (some v)) j (some ⟨0, 0⟩)) j none,
                   tab := upd s.tab 0 none, log := .closedForeign :: s.log }, ?_, by simp, by simp⟩
  simp [runOps, Sock.step, hi, hj, Sock.closes, Sock.valid, Sock.invalidFd, Sock.initializerFd,
    Sock.STATUS_SUCCESS, Sock.destroy, h0]

/-- **C42 fails.** Move assignment to a variable that holds a socket (itself included) leaves that socket open
with no owner; this holds for `NetworkBase` and for accepted connections. -/
theorem C42_assign_leaks {c : Sock.Cls} {t : Int → Bool} (h0 : t 0 = true) (h1 : t (-1) = false) {s : Sock.St}
    (h : Reach (Sock.step c) (Sock.careful c) (Sock.start t) s) {i j r : Nat}
    (hi : Sock.owner s i = some r) (hj : s.vars j ≠ none) :
    ∃ s', Sock.step c s (.moveAssign i j) = .ok s' ∧ Live r s'.log ∧ ∀ k, Sock.owner s' k ≠ some r := by
  have hinv := Sock.reach_inv h0 h1 h
  obtain ⟨u, hu, hur⟩ := Sock.owner_some.mp hi
  obtain ⟨v, hv⟩ := Option.ne_none_iff_exists'.mp hj
  refine ⟨{ s with vars := upd (upd s.vars i (some v)) j (some ⟨Sock.initializerFd, Sock.STATUS_SUCCESS⟩) },
    by simp [Sock.step, hu, hv], hinv.ledger.ownedLive i r hi, ?_⟩
  intro k hk
  obtain ⟨x, hx, hxr⟩ := Sock.owner_some.mp hk
  simp only at hx hxr
  by_cases hkj : k = j
  · subst hkj
    simp only [upd_self, Option.some.injEq] at hx
    subst hx
    rw [Sock.initializerFd, hinv.zero] at hxr
    cases hxr
  · rw [upd_ne _ _ hkj] at hx
    by_cases hki : k = i
    · subst hki
      simp only [upd_self, Option.some.injEq] at hx
      subst hx
      exact hkj (hinv.ledger.unique k j r hi (Sock.owner_some.mpr ⟨v, hv, hxr⟩))
    · rw [upd_ne _ _ hki] at hx
      exact hki (hinv.ledger.unique k i r (Sock.owner_some.mpr ⟨x, hx, hxr⟩) hi)

/-- **C42, reconnecting.** In every such execution a client that holds a socket and reconnects has that socket closed and owns the new one
(which may have the same descriptor), whatever `connect` then says; if no socket can be made it owns nothing, and no other object's socket
changes hands. -/
theorem C42_reconnect_partial {t : Int → Bool} (h0 : t 0 = true) (h1 : t (-1) = false) {s : Sock.St}
    (h : Reach (Sock.step .base) (Sock.careful .base) (Sock.start t) s) {i r : Nat} {fd : Option Int} {rc : Int}
    (hi : Sock.owner s i = some r) (hp : Sock.careful .base s (.reconnect i fd rc)) :
    ∃ s', Sock.step .base s (.reconnect i fd rc) = .ok s' ∧ .closed r ∈ s'.log ∧ ¬ Live r s'.log ∧
      Sock.owner s' i = fd.map (fun _ => s.next) ∧ ∀ k, k ≠ i → Sock.owner s' k = Sock.owner s k := by
  have hinv := Sock.reach_inv h0 h1 h
  obtain ⟨s', hs, hinv'⟩ := Sock.step_ok hinv hp
  obtain ⟨v, hv, e⟩ := Sock.owner_some.mp hi
  have hm : v.fd ≠ -1 := by intro e'; rw [e', hinv.minus] at e; cases e
  have hdd : Sock.destroy s.tab s.log v.fd =
      (upd s.tab v.fd none, .closed r :: s.log, Sock.invalidFd, Sock.STATUS_SUCCESS) := by
    unfold Sock.destroy; rw [e]
  have hs' : s' = Sock.renew (Sock.closed s i v) i fd rc := by
    have : ¬ Sock.STATUS_SUCCESS < 0 := by decide
    simp only [Sock.step, hv, Sock.invalidFd, ne_eq, hm, not_false_eq_true, if_true, hdd, this, if_false, Res.ok.injEq] at hs
    exact hs.symm
  have hcl : .closed r ∈ s'.log := by
    subst hs'
    cases fd <;> simp [Sock.renew, Sock.closed, hdd]
  have hother : ∀ k x, k ≠ i → s.vars k = some x → x.fd ≠ v.fd := by
    intro k x hk hx he
    exact hk (hinv.ledger.unique k i r (Sock.owner_some.mpr ⟨x, hx, by rw [he]; exact e⟩) hi)
  refine ⟨s', hs, hcl, fun hl => hl.2 hcl, ?_, ?_⟩
  · subst hs'
    cases fd with
    | none =>
      simp only [Sock.renew, Sock.owner, upd_self, Sock.closed, hdd, Sock.invalidFd, Option.map_none]
      rw [upd_ne _ _ (fun e' => hm e'.symm), hinv.minus]
    | some d => simp [Sock.renew, Sock.owner, Sock.closed]
  · intro k hk
    subst hs'
    cases fd with
    | none =>
      simp only [Sock.renew, Sock.owner, Sock.closed, hdd, upd_ne _ _ hk]
      cases hx : s.vars k with
      | none => rfl
      | some x => simp only [upd_ne _ _ (hother k x hk hx)]
    | some d =>
      simp only [Sock.renew, Sock.owner, Sock.closed, hdd, upd_ne _ _ hk]
      cases hx : s.vars k with
      | none => rfl
      | some x =>
        have hxd : x.fd ≠ d := by
          intro he
          obtain ⟨h2, h3⟩ := hp.1.2
          rcases h3 with h3 | h3
          · rcases hinv.varsOk k x hx with e1 | e1 | ⟨q, e1⟩
            · omega
            · rw [e1] at he; rw [← he, hinv.zero] at h3; cases h3
            · rw [he, h3] at e1; cases e1
          · simp [hv] at h3
            exact hother k x hk hx (by rw [he, h3])
        simp only [upd_ne _ _ hxd, upd_ne _ _ (hother k x hk hx)]

/-- **C42 fails, reconnecting a moved-from client.** It closes descriptor 0 of the process first. -/
theorem C42_reconnect_closes_stdin (s : Sock.St) {i : Nat} {st : Int} (hi : s.vars i = some ⟨Sock.initializerFd, st⟩)
    (h0 : s.tab 0 = some .foreign) (rc : Int) :
    ∃ s', Sock.step .base s (.reconnect i none rc) = .ok s' ∧ s'.tab 0 = none ∧ .closedForeign ∈ s'.log := by
  have : ¬ Sock.STATUS_SUCCESS < 0 := by decide
  have h1 : (0 : Int) ≠ -1 := by decide
  refine ⟨Sock.renew (Sock.closed s i ⟨0, st⟩) i none rc, ?_, ?_, ?_⟩
  · simp [Sock.step, hi, Sock.initializerFd, Sock.invalidFd, Sock.destroy, h0, this]
  · simp [Sock.renew, Sock.closed, Sock.destroy, h0]
  · simp [Sock.renew, Sock.closed, Sock.destroy, h0]

/-- A failed socket never reports failure: the constructor leaves the status at success and `operator bool` is
true (so the destructor calls `close(-1)`). -/
theorem C42_failed_socket_reported_valid :
    Sock.valid (Sock.ctor Sock.invalidFd) = true ∧ (Sock.ctor Sock.invalidFd).status = 0 := by decide

/-- **C42.** An accepted connection, unlike a socket that could not be created, is reported valid exactly if the system gave a
descriptor. -/
theorem C42_accepted_valid_iff (fd : Int) :
    (Sock.valid (Sock.construct .client fd) = true ↔ fd ≠ -1) ∧ ((Sock.construct .client fd).status < 0 ↔ fd = -1) := by
  by_cases h : fd = -1
  · subst h; decide
  · have h' : Sock.invalidFd ≠ fd := fun e => h e.symm
    simp [Sock.valid, Sock.construct, Sock.STATUS_SUCCESS, Sock.STATUS_FAILED, h, h']
    simp [Sock.invalidFd, h]

example : Sock.valid (Sock.construct .client 5) = true := by decide

/-- Reconnecting with the same descriptor number, then with a socket that could not be made. -/
example : ∃ s, Reach (Sock.step .base) (Sock.careful .base) (Sock.start (fun d => d == 0 || d == 1 || d == 2)) s ∧
    (s.log, Sock.owner s 0, Sock.owner s 1) =
      ([.closed 2, .made 2, .closed 0, .made 1, .made 0], none, some 1) :=
  Reach.witness [.create 0 (some 3), .create 1 (some 4), .reconnect 0 (some 3) (-111), .reconnect 0 none (-9)] _ _ (by decide)

/-- Non-trivial executions: sockets created, moved, disconnected, one descriptor number reused. -/
example : ∃ s, Reach (Sock.step .base) (Sock.careful .base) (Sock.start (fun d => d == 0 || d == 1 || d == 2)) s ∧
    (s.log, Sock.owner s 0, Sock.owner s 1, Sock.owner s 2) =
      ([.made 2, .closed 0, .made 1, .made 0], none, some 2, some 1) :=
  Reach.witness [.create 0 (some 3), .create 1 (some 4), .moveCtor 2 1, .setStatus 2 (-5), .disconnect 0,
    .create 5 (some 3), .moveAssign 1 5] _ _ (by decide)

example : ∃ s, Reach (Sock.step .client) (Sock.careful .client) (Sock.start (fun d => d == 0 || d == 1 || d == 2)) s ∧
    (s.log, (List.range 4).map s.vars) =
      ([.closed 1, .closedNothing, .closed 0, .made 1, .made 0], List.replicate 4 none) :=
  Reach.witness [.create 0 (some 3), .create 1 (some 4), .moveCtor 2 1, .create 3 none, .drop 1, .drop 0, .drop 3, .drop 2] _ _ (by decide)

namespace Flame
open Own
private def std (d : Int) : Bool := d == 0 || d == 1 || d == 2
example := C42_base_partial (t := std) (by decide) (by decide)
  (.visit ([.create 0 (some 3), .create 1 (some 4), .reconnect 0 (some 3) (-111)] : List Sock.Op) (by decide +kernel))
example := C42_client_partial (t := std) (by decide) (by decide)
  (.visit ([.create 0 (some 3), .create 1 (some 4), .moveCtor 2 1, .drop 0] : List Sock.Op) (by decide +kernel))
example := C42_base_once_partial (t := std) (by decide) (by decide) (s := Sock.start std) .start (fun _ => rfl)
example := C42_move_closes_stdin (visit (Sock.step .base) (Sock.careful .base) (Sock.start std) [.create 0 (some 3)]) (i := 1) (j := 0)
  rfl rfl rfl
example := C42_assign_leaks (c := .base) (t := std) (by decide) (by decide)
  (.visit ([.create 0 (some 3), .create 1 (some 4)] : List Sock.Op) (by decide +kernel)) (i := 0) (j := 1) (r := 0) (by decide +kernel) (by decide +kernel)
example := C42_reconnect_partial (t := std) (by decide) (by decide)
  (.visit ([.create 0 (some 3), .create 1 (some 4)] : List Sock.Op) (by decide +kernel)) (i := 0) (r := 0) (fd := some 3) (rc := -111)
  (by decide +kernel) (by decide +kernel)
example := C42_reconnect_closes_stdin { Sock.start std with vars := fun _ => some ⟨Sock.initializerFd, -5⟩ } (i := 0) rfl rfl (-9)
end Flame

end Flame
