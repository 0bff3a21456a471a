import Verif.Net.Catch

/-!
# C148 — an event is reported whenever it happens; C149 — an accepted connection is handed over or closed
-/

namespace Flame
open Catch
open Flame.Own (upd upd_self upd_ne)

namespace CatchLemmas

theorem run_append (s : Catch.St) (a b : List Catch.Op) : Catch.run s (a ++ b) = Catch.run (Catch.run s a) b := by
  induction a generalizing s with
  | nil => rfl
  | cons o a ih => exact ih _

/-- `fd` was never reported and no signal waits for it. -/
def Silent (fd : Nat) (s : Catch.St) : Prop := s.pending ≠ some fd ∧ fd ∉ s.entries

theorem silent_step {s : Catch.St} {fd : Nat} (h0 : fd ≠ 0) (h : Silent fd s) (o : Catch.Op)
    (ho : o = .data fd → (s.desc fd).sig = false) : Silent fd (Catch.step s o) := by
  obtain ⟨h1, h2⟩ := h
  cases o with
  | data d =>
    simp only [Catch.step, raise]
    split
    · cases hp : s.pending with
      | some e => exact ⟨by simpa [hp] using h1, h2⟩
      | none =>
        refine ⟨?_, h2⟩
        simp only [ne_eq, Option.some.injEq]
        by_cases hd : d = fd
        · subst hd; simp [ho rfl]; exact fun e => h0 e.symm
        · split
          · exact hd
          · exact fun e => h0 e.symm
    · exact ⟨h1, h2⟩
  | setfl d => exact ⟨h1, h2⟩
  | setown d => exact ⟨h1, h2⟩
  | setsig d => exact ⟨h1, h2⟩
  | deliver =>
    simp only [Catch.step]
    cases hp : s.pending with
    | none => exact ⟨by simp [hp], h2⟩
    | some e =>
      simp only [handle]
      split
      · refine ⟨by simp, ?_⟩
        simp only [List.mem_cons, not_or]
        exact ⟨fun e' => h1 (by rw [hp, e']), h2⟩
      · exact ⟨by simp, h2⟩

theorem sig_step {s : Catch.St} {fd : Nat} (h : (s.desc fd).sig = false) (o : Catch.Op) (ho : o ≠ .setsig fd) :
    ((Catch.step s o).desc fd).sig = false := by
  have key : ∀ (d : Nat) (x : Desc), (d = fd → x.sig = false) → (upd s.desc d x fd).sig = false := by
    intro d x hx
    by_cases hd : fd = d
    · subst hd; simpa using hx rfl
    · simpa [upd_ne _ _ hd] using h
  cases o with
  | data d => simp only [Catch.step, raise]; split <;> (try split) <;> exact h
  | setfl d => exact key d _ (fun e => by rw [e]; exact h)
  | setown d => exact key d _ (fun e => by rw [e]; exact h)
  | setsig d => exact key d _ (fun e => absurd (by rw [e]) ho)
  | deliver => simp only [Catch.step, handle]; split <;> (try split) <;> exact h

theorem silent_before {s : Catch.St} {fd : Nat} (h0 : fd ≠ 0) (os : List Catch.Op) (h : Silent fd s) (hs : (s.desc fd).sig = false)
    (ho : Catch.Op.setsig fd ∉ os) : Silent fd (Catch.run s os) := by
  induction os generalizing s with
  | nil => exact h
  | cons o os ih =>
    simp only [List.mem_cons, not_or] at ho
    exact ih (silent_step h0 h o fun _ => hs) (sig_step hs o (fun e => ho.1 e.symm)) ho.2

theorem silent_after {s : Catch.St} {fd : Nat} (h0 : fd ≠ 0) (os : List Catch.Op) (h : Silent fd s) (ho : Catch.Op.data fd ∉ os) :
    Silent fd (Catch.run s os) := by
  induction os generalizing s with
  | nil => exact h
  | cons o os ih =>
    simp only [List.mem_cons, not_or] at ho
    exact ih (silent_step h0 h o fun e => absurd e.symm ho.1) ho.2

theorem unread_step {s : Catch.St} {fd : Nat} (h : s.unread fd = true) (o : Catch.Op) : (Catch.step s o).unread fd = true := by
  cases o with
  | data d =>
    have : (upd s.unread d true) fd = true := by
      by_cases hd : fd = d
      · subst hd; simp
      · simpa [upd_ne _ _ hd] using h
    simp only [Catch.step, raise]; split <;> (try split) <;> exact this
  | setfl d => exact h
  | setown d => exact h
  | setsig d => exact h
  | deliver => simp only [Catch.step, handle]; split <;> (try split) <;> exact h

theorem unread_run {s : Catch.St} {fd : Nat} (os : List Catch.Op) (h : s.unread fd = true ∨ Catch.Op.data fd ∈ os) :
    (Catch.run s os).unread fd = true := by
  induction os generalizing s with
  | nil => exact h.resolve_right (by simp)
  | cons o os ih =>
    refine ih ?_
    rcases h with h | h
    · exact .inl (unread_step h o)
    · rcases List.mem_cons.mp h with rfl | h
      · refine .inl ?_
        simp only [Catch.step, raise]; split <;> (try split) <;> simp
      · exact .inr h

end CatchLemmas

open CatchLemmas

/-- **C148 fails.** Whatever else happens: data that arrives on a descriptor before its registration is complete — before `add` was called, or
while it runs — is never reported.  It stays in the socket, and the program is not told until more arrives. -/
theorem C148_early_data_never_reported (sock : Nat → Bool) {fd : Nat} (h0 : fd ≠ 0) (pre post : List Catch.Op)
    (h1 : Catch.Op.setsig fd ∉ pre) (h2 : Catch.Op.data fd ∉ post) (hd : Catch.Op.data fd ∈ pre) :
    fd ∉ (Catch.run (Catch.init sock) (pre ++ .setsig fd :: post)).entries ∧
      (Catch.run (Catch.init sock) (pre ++ .setsig fd :: post)).unread fd = true := by
  refine ⟨?_, unread_run _ (.inr (by simp [hd]))⟩
  rw [run_append]
  have a : Silent fd (Catch.run (Catch.init sock) pre) := silent_before h0 pre ⟨by simp [Catch.init], by simp [Catch.init]⟩ rfl h1
  have b := silent_after h0 (.setsig fd :: post) a (by simp [h2])
  exact b.2

/-- The client of an accepted connection sends its request before the program has registered the connection. -/
example : let pre : List Catch.Op := [.data 5, .setfl 5, .setown 5]
    Catch.Op.setsig 5 ∉ pre ∧ Catch.Op.data 5 ∉ [Catch.Op.deliver, .deliver] ∧ Catch.Op.data 5 ∈ pre := by decide

/-- **C148 fails.** Data that arrives between the second and the third `fcntl` is reported as an event of descriptor 0, if that is a socket: of
one that may never have been registered and on which nothing happened. -/
theorem C148_wrong_descriptor (s : Catch.St) {fd : Nat} (h1 : s.pending = none) (h2 : s.sock 0 = true) (h3 : (s.desc fd).sig = false) :
    (Catch.run s [.setfl fd, .setown fd, .data fd, .setsig fd, .deliver]).entries = 0 :: s.entries := by
  simp [Catch.run, Catch.step, raise, handle, h1, h2, h3]

/-- **C148, what holds.** Once the three calls have been made, data is reported if no signal is waiting when it arrives and the handler runs. -/
theorem C148_registered_partial (s : Catch.St) {fd : Nat} (h1 : s.pending = none) (h2 : s.sock fd = true) :
    let s' := Catch.run s [.setfl fd, .setown fd, .setsig fd]
    (Catch.run s' [.data fd, .deliver]).entries = fd :: s.entries ∧ (Catch.run s' [.data fd, .deliver]).pending = none := by
  simp [Catch.run, Catch.step, raise, handle, h1, h2]

/-- What a history has done so far: a flag is set only by its call, a descriptor is reported only with all three set, descriptor 0 also on
behalf of one with the first two set, and data waits only where it came. -/
structure Told (os : List Catch.Op) (s : Catch.St) : Prop where
  fl : ∀ fd, (s.desc fd).async = true → Catch.Op.setfl fd ∈ os
  own : ∀ fd, (s.desc fd).owner = true → Catch.Op.setown fd ∈ os
  sig : ∀ fd, (s.desc fd).sig = true → Catch.Op.setsig fd ∈ os
  seen : ∀ fd, (s.pending = some fd ∨ fd ∈ s.entries) →
    (Catch.Op.setfl fd ∈ os ∧ Catch.Op.setown fd ∈ os ∧ Catch.Op.setsig fd ∈ os ∧ Catch.Op.data fd ∈ os) ∨
    (fd = 0 ∧ ∃ d, Catch.Op.setfl d ∈ os ∧ Catch.Op.setown d ∈ os ∧ Catch.Op.data d ∈ os)
  unread : ∀ fd, s.unread fd = true ↔ Catch.Op.data fd ∈ os

theorem told_mono {os : List Catch.Op} {s : Catch.St} (h : Told os s) (o : Catch.Op) (ho : ∀ fd, o ≠ .data fd) : Told (os ++ [o]) s := by
  refine ⟨fun fd hf => by simp [h.fl fd hf], fun fd hf => by simp [h.own fd hf], fun fd hf => by simp [h.sig fd hf], ?_, ?_⟩
  · intro fd hf
    rcases h.seen fd hf with ⟨a, b, c, d⟩ | ⟨a, d, b, c, e⟩
    · exact .inl ⟨by simp [a], by simp [b], by simp [c], by simp [d]⟩
    · exact .inr ⟨a, d, by simp [b], by simp [c], by simp [e]⟩
  · intro fd
    rw [h.unread fd]
    have := ho fd
    constructor
    · intro h'; simp [h']
    · intro h'
      rcases List.mem_append.mp h' with h' | h'
      · exact h'
      · simp only [List.mem_singleton] at h'; exact absurd h'.symm this

theorem told_step {os : List Catch.Op} {s : Catch.St} (h : Told os s) (o : Catch.Op) : Told (os ++ [o]) (Catch.step s o) := by
  cases o with
  | setfl d =>
    have g := told_mono h (.setfl d) (by simp)
    refine ⟨fun fd hf => ?_, fun fd hf => ?_, fun fd hf => ?_, g.seen, g.unread⟩ <;> by_cases hd : fd = d
    · subst hd; simp
    · simp only [Catch.step, upd_ne _ _ hd] at hf; exact g.fl fd hf
    · subst hd; simp only [Catch.step, upd_self] at hf; exact g.own _ hf
    · simp only [Catch.step, upd_ne _ _ hd] at hf; exact g.own fd hf
    · subst hd; simp only [Catch.step, upd_self] at hf; exact g.sig _ hf
    · simp only [Catch.step, upd_ne _ _ hd] at hf; exact g.sig fd hf
  | setown d =>
    have g := told_mono h (.setown d) (by simp)
    refine ⟨fun fd hf => ?_, fun fd hf => ?_, fun fd hf => ?_, g.seen, g.unread⟩ <;> by_cases hd : fd = d
    · subst hd; simp only [Catch.step, upd_self] at hf; exact g.fl _ hf
    · simp only [Catch.step, upd_ne _ _ hd] at hf; exact g.fl fd hf
    · subst hd; simp
    · simp only [Catch.step, upd_ne _ _ hd] at hf; exact g.own fd hf
    · subst hd; simp only [Catch.step, upd_self] at hf; exact g.sig _ hf
    · simp only [Catch.step, upd_ne _ _ hd] at hf; exact g.sig fd hf
  | setsig d =>
    have g := told_mono h (.setsig d) (by simp)
    refine ⟨fun fd hf => ?_, fun fd hf => ?_, fun fd hf => ?_, g.seen, g.unread⟩ <;> by_cases hd : fd = d
    · subst hd; simp only [Catch.step, upd_self] at hf; exact g.fl _ hf
    · simp only [Catch.step, upd_ne _ _ hd] at hf; exact g.fl fd hf
    · subst hd; simp only [Catch.step, upd_self] at hf; exact g.own _ hf
    · simp only [Catch.step, upd_ne _ _ hd] at hf; exact g.own fd hf
    · subst hd; simp
    · simp only [Catch.step, upd_ne _ _ hd] at hf; exact g.sig fd hf
  | deliver =>
    have g := told_mono h .deliver (by simp)
    simp only [Catch.step]
    cases hp : s.pending with
    | none => exact g
    | some e =>
      simp only [handle]
      split
      · refine ⟨g.fl, g.own, g.sig, ?_, g.unread⟩
        intro fd hf
        simp only [reduceCtorEq, List.mem_cons, false_or] at hf
        rcases hf with rfl | hf
        · exact g.seen fd (.inl hp)
        · exact g.seen fd (.inr hf)
      · exact ⟨g.fl, g.own, g.sig, fun fd hf => g.seen fd (.inr (hf.resolve_left (by simp))), g.unread⟩
  | data d =>
    have hu : ∀ fd, upd s.unread d true fd = true ↔ Catch.Op.data fd ∈ os ++ [.data d] := by
      intro fd
      by_cases hd : fd = d
      · subst hd; simp
      · simp [upd_ne _ _ hd, h.unread fd, hd]
    have hm : ∀ {x : Catch.Op}, x ∈ os → x ∈ os ++ [Catch.Op.data d] := fun hx => by simp [hx]
    have hs : ∀ fd, (s.pending = some fd ∨ fd ∈ s.entries) →
        (Catch.Op.setfl fd ∈ os ++ [.data d] ∧ Catch.Op.setown fd ∈ os ++ [.data d] ∧ Catch.Op.setsig fd ∈ os ++ [.data d] ∧
          Catch.Op.data fd ∈ os ++ [.data d]) ∨
        (fd = 0 ∧ ∃ e, Catch.Op.setfl e ∈ os ++ [.data d] ∧ Catch.Op.setown e ∈ os ++ [.data d] ∧ Catch.Op.data e ∈ os ++ [.data d]) := by
      intro fd hf
      rcases h.seen fd hf with ⟨a, b, c, e⟩ | ⟨a, x, b, c, e⟩
      · exact .inl ⟨hm a, hm b, hm c, hm e⟩
      · exact .inr ⟨a, x, hm b, hm c, hm e⟩
    simp only [Catch.step, raise]
    split
    · rename_i hf
      simp only [Bool.and_eq_true] at hf
      cases hp : s.pending with
      | some e => exact ⟨fun fd x => hm (h.fl fd x), fun fd x => hm (h.own fd x), fun fd x => hm (h.sig fd x), fun fd hfd => hs fd (hp ▸ hfd), hu⟩
      | none =>
        refine ⟨fun fd x => hm (h.fl fd x), fun fd x => hm (h.own fd x), fun fd x => hm (h.sig fd x), ?_, hu⟩
        intro fd hfd
        rcases hfd with hfd | hfd
        · simp only [Option.some.injEq] at hfd
          by_cases hsig : (s.desc d).sig = true
          · rw [if_pos hsig] at hfd
            subst hfd
            exact .inl ⟨hm (h.fl _ hf.1), hm (h.own _ hf.2), hm (h.sig _ hsig), by simp⟩
          · rw [if_neg hsig] at hfd
            exact .inr ⟨hfd.symm, d, hm (h.fl _ hf.1), hm (h.own _ hf.2), by simp⟩
        · exact hs fd (.inr hfd)
    · exact ⟨fun fd x => hm (h.fl fd x), fun fd x => hm (h.own fd x), fun fd x => hm (h.sig fd x), hs, hu⟩

/-- **C148, what holds.** In every history a descriptor is reported only if all three calls were made for it and data came, except descriptor 0,
which is also reported for another one whose second call was made; what waits in a socket is what came. -/
theorem C148_only_registered_partial (sock : Nat → Bool) (os : List Catch.Op) (fd : Nat) :
    (fd ∈ (Catch.run (Catch.init sock) os).entries →
      (Catch.Op.setfl fd ∈ os ∧ Catch.Op.setown fd ∈ os ∧ Catch.Op.setsig fd ∈ os ∧ Catch.Op.data fd ∈ os) ∨
      (fd = 0 ∧ ∃ d, Catch.Op.setfl d ∈ os ∧ Catch.Op.setown d ∈ os ∧ Catch.Op.data d ∈ os)) ∧
    ((Catch.run (Catch.init sock) os).unread fd = true ↔ Catch.Op.data fd ∈ os) := by
  have key : ∀ (todo : List Catch.Op) (past : List Catch.Op) (s : Catch.St), Told past s → Told (past ++ todo) (Catch.run s todo) := by
    intro todo
    induction todo with
    | nil => intro past s h; simpa [Catch.run] using h
    | cons o os ih =>
      intro past s h
      have := ih (past ++ [o]) _ (told_step h o)
      simpa [Catch.run] using this
  have h := key os [] (Catch.init sock) ⟨by simp [Catch.init], by simp [Catch.init], by simp [Catch.init], by simp [Catch.init],
    by simp [Catch.init]⟩
  exact ⟨fun hf => h.seen fd (.inr hf), h.unread fd⟩

example : ∃ sock, sock 5 = true ∧ (Catch.run (Catch.init sock) [.data 5, .setfl 5, .setown 5, .setsig 5, .deliver]).entries = [] ∧
    (Catch.run (Catch.init sock) [.data 5, .setfl 5, .setown 5, .setsig 5, .data 5, .deliver]).entries = [5] :=
  ⟨fun n => n == 5, by decide, by decide, by decide⟩

/-! ## C149 -/

namespace CatchLemmas

theorem acc_run_append (s : Acc) (a b : List AOp) : Acc.run s (a ++ b) = Acc.run (Acc.run s a) b := by
  induction a generalizing s with
  | nil => rfl
  | cons o a ih => exact ih _

theorem room_step {s : Acc} (h : s.given ++ s.queue = List.range s.next) (o : AOp) (ho : o = .accept → s.queue.length < s.cap)
    (hc : o = .clear → s.queue = []) :
    (s.step o).given ++ (s.step o).queue = List.range (s.step o).next := by
  cases o with
  | accept =>
    have := ho rfl
    have hn : ¬ s.queue.length = s.cap := by omega
    simp [Acc.step, hn, List.range_succ, ← h]
  | pop =>
    simp only [Acc.step]
    cases hq : s.queue with
    | nil => simpa [hq] using h
    | cons d q => simpa [hq] using h
  | close d =>
    simp only [Acc.step]
    split <;> exact h
  | clear => simpa [Acc.step, hc rfl] using h

/-- `d` has been accepted but the program will never see it. -/
def Lost (d : Nat) (s : Acc) : Prop := d < s.next ∧ d ∉ s.given ∧ d ∉ s.queue ∧ d ∉ s.closed

theorem lost_step {d : Nat} {s : Acc} (h : Lost d s) (o : AOp) : Lost d (s.step o) := by
  obtain ⟨h1, h2, h3, h4⟩ := h
  cases o with
  | accept =>
    refine ⟨by simp [Acc.step]; omega, h2, ?_, h4⟩
    simp only [Acc.step]
    split
    · exact h3
    · simp [h3]; omega
  | pop =>
    simp only [Acc.step]
    cases hq : s.queue with
    | nil => exact ⟨h1, h2, by simp [hq], h4⟩
    | cons e q =>
      rw [hq] at h3
      simp only [List.mem_cons, not_or] at h3
      exact ⟨h1, by simp [h2, h3.1], h3.2, h4⟩
  | close e =>
    simp only [Acc.step]
    split
    · refine ⟨h1, h2, h3, ?_⟩
      simp only [List.mem_cons, not_or]
      exact ⟨fun e' => h2 (by subst e'; assumption), h4⟩
    · exact ⟨h1, h2, h3, h4⟩
  | clear => exact ⟨h1, h2, by simp [Acc.step], h4⟩

theorem lost_run {d : Nat} {s : Acc} (h : Lost d s) (os : List AOp) : Lost d (Acc.run s os) := by
  induction os generalizing s with
  | nil => exact h
  | cons o os ih => exact ih (lost_step h o)

structure AInv (s : Acc) : Prop where
  cap : s.queue.length ≤ s.cap
  given : ∀ d ∈ s.given, d < s.next
  queue : ∀ d ∈ s.queue, d < s.next
  closed : ∀ d ∈ s.closed, d ∈ s.given
  once : (s.given ++ s.queue).Nodup

theorem ainv_init (cap : Nat) : AInv (Acc.init cap) :=
  ⟨by simp [Acc.init], by simp [Acc.init], by simp [Acc.init], by simp [Acc.init], by simp [Acc.init]⟩

theorem ainv_step {s : Acc} (h : AInv s) (o : AOp) : AInv (s.step o) := by
  cases o with
  | accept =>
    refine ⟨?_, fun d hd => ?_, fun d hd => ?_, h.closed, ?_⟩
    · have := h.cap
      simp only [Acc.step]
      split
      · exact h.cap
      · simp; omega
    · have := h.given d hd
      simp [Acc.step]; omega
    · simp only [Acc.step] at hd ⊢
      split at hd
      · have := h.queue d hd; omega
      · rcases List.mem_append.mp hd with hd | hd
        · have := h.queue d hd; omega
        · simp at hd; omega
    · simp only [Acc.step]
      split
      · exact h.once
      · rw [← List.append_assoc, List.nodup_append]
        refine ⟨h.once, by simp, ?_⟩
        intro a ha b hb e
        simp only [List.mem_singleton] at hb
        subst e; subst hb
        rcases List.mem_append.mp ha with ha | ha
        · exact Nat.lt_irrefl _ (h.given _ ha)
        · exact Nat.lt_irrefl _ (h.queue _ ha)
  | pop =>
    simp only [Acc.step]
    cases hq : s.queue with
    | nil => simpa [hq] using h
    | cons e q =>
      have hc := h.cap
      have hqs := h.queue
      rw [hq] at hc hqs
      refine ⟨by simp at hc ⊢; omega, fun d hd => ?_, fun d hd => hqs d (by simp [hd]), fun d hd => by simp [h.closed d hd],
        by simpa [hq] using h.once⟩
      rcases List.mem_append.mp hd with hd | hd
      · exact h.given d hd
      · simp at hd; subst hd; exact hqs d (by simp)
  | close e =>
    simp only [Acc.step]
    split
    · refine ⟨h.cap, h.given, h.queue, fun d hd => ?_, h.once⟩
      rcases List.mem_cons.mp hd with rfl | hd
      · assumption
      · exact h.closed d hd
    · exact h
  | clear =>
    exact ⟨by simp [Acc.step], h.given, by simp [Acc.step], h.closed, by simpa [Acc.step] using (List.nodup_append.mp h.once).1⟩

theorem ainv_run {s : Acc} (h : AInv s) (os : List AOp) : AInv (Acc.run s os) := by
  induction os generalizing s with
  | nil => exact h
  | cons o os ih => exact ih (ainv_step h o)

end CatchLemmas

/-- **C149, what holds.** As long as no connection is taken while the queue is full and `clear` is not called while one waits, every accepted connection has been given to the program or
is waiting for it, once, in the order of acceptance. -/
theorem C149_handed_over_partial (cap : Nat) (os : List AOp) (h : (Acc.init cap).Room os) :
    ((Acc.init cap).run os).given ++ ((Acc.init cap).run os).queue = List.range ((Acc.init cap).run os).next := by
  have key : ∀ (os : List AOp) (s : Acc), s.given ++ s.queue = List.range s.next → s.Room os →
      (s.run os).given ++ (s.run os).queue = List.range (s.run os).next := by
    intro os
    induction os with
    | nil => intro s h _; exact h
    | cons o os ih => intro s h hr; exact ih _ (room_step h o hr.1 hr.2.1) hr.2.2
  exact key os _ (by simp [Acc.init]) h

/-- **C149 fails.** In every history: a connection accepted while the queue is full is open and stays open, and the program will never be told
its descriptor, whatever it does afterwards. -/
theorem C149_full_queue_leaks (cap : Nat) (os later : List AOp) (h : ((Acc.init cap).run os).queue.length = cap) :
    let d := ((Acc.init cap).run os).next
    let s := (Acc.init cap).run (os ++ .accept :: later)
    d < s.next ∧ d ∉ s.given ∧ d ∉ s.queue ∧ d ∉ s.closed := by
  have hi : AInv ((Acc.init cap).run os) := ainv_run (ainv_init cap) os
  have hcap : ((Acc.init cap).run os).cap = cap := by
    have : ∀ (os : List AOp) (s : Acc), (s.run os).cap = s.cap := by
      intro os
      induction os with
      | nil => intro s; rfl
      | cons o os ih =>
        intro s
        refine (ih _).trans ?_
        cases o <;> simp only [Acc.step] <;> (try split) <;> rfl
    exact this os _
  dsimp only
  rw [acc_run_append]
  refine lost_run (s := ((Acc.init cap).run os).step .accept) ?_ later
  have hl : ((Acc.init cap).run os).queue.length = ((Acc.init cap).run os).cap := by rw [hcap]; exact h
  refine ⟨by simp [Acc.step], fun hd => ?_, fun hd => ?_, fun hd => ?_⟩
  · have := hi.given _ hd; omega
  · simp only [Acc.step, hl, if_true] at hd
    have := hi.queue _ hd; omega
  · have := hi.given _ (hi.closed _ hd); omega

/-- **C149 fails, `clear`.** In every history: the connections that wait when `clear` is called are open and stay open, and the program will
never be told their descriptors, whatever it does afterwards. -/
theorem C149_clear_leaks (cap : Nat) (os later : List AOp) {d : Nat} (h : d ∈ ((Acc.init cap).run os).queue) :
    let s := (Acc.init cap).run (os ++ .clear :: later)
    d < s.next ∧ d ∉ s.given ∧ d ∉ s.queue ∧ d ∉ s.closed := by
  have hi : AInv ((Acc.init cap).run os) := ainv_run (ainv_init cap) os
  dsimp only
  rw [acc_run_append]
  refine lost_run (s := ((Acc.init cap).run os).step .clear) ?_ later
  have hg : d ∉ ((Acc.init cap).run os).given := fun hd => (List.nodup_append.mp hi.once).2.2 d hd d h rfl
  exact ⟨hi.queue d h, hg, by simp [Acc.step], fun hd => hg (hi.closed d hd)⟩

example : 1 ∈ ((Acc.init 2).run [.accept, .accept, .pop]).queue := by simp [Acc.init, Acc.step, Acc.run]

example : (Acc.init 2).Room [.accept, .accept, .pop, .accept, .close 0] ∧ ((Acc.init 2).run [.accept, .accept]).queue.length = 2 ∧
    ((Acc.init 2).run [.accept, .accept, .accept, .pop, .pop, .pop]).given = [0, 1] := by
  simp [Acc.Room, Acc.init, Acc.step, Acc.run]

namespace Flame
open Catch
example := C148_wrong_descriptor (Catch.init fun _ => true) (fd := 5) rfl rfl rfl
example := C148_registered_partial (Catch.init fun n => n == 5) (fd := 5) rfl rfl
example := C149_handed_over_partial 2 [.accept, .accept, .pop, .accept] (by simp [Acc.Room, Acc.init, Acc.step])
example := C149_full_queue_leaks 2 [.accept, .accept] [.pop, .pop] (by simp [Acc.run, Acc.init, Acc.step])
end Flame

end Flame
