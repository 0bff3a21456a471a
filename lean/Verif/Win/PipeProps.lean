import Verif.Win.Pipe

/-! # C117, C119: handles of pipes on Windows -/

namespace Flame.WinPipe
open Flame.Own

/-! ## Exact effect of single calls -/

/-- C117: what destroying a reader does: it closes its handle exactly if that is an open server's end — whoever owns it; a
handle that was closed already it disconnects, whatever it stands for now. -/
theorem C117_reader_destroy (server : Nat → Bool) (o : Obj) (hk : o.kind = .reader) (log : List Ev) :
    destroy server o log = .ok (match o.fd with
      | some r => if ¬ Live r log then .closedForeign :: log else if server r = true then .closed r :: log else log
      | none => log) := by
  obtain ⟨k, fd, own, del⟩ := o
  simp only at hk; subst hk
  cases fd with
  | none => rfl
  | some r =>
    simp only [destroy, destroyNamedReader, set, closeOwned, Res.bind, closeHandle]
    by_cases hl : Live r log <;> by_cases h : server r = true <;> simp [h, hl]

/-- C117: what destroying a writer does: with `delPipe` it closes its handle whoever owns it, without, exactly if it owns it. -/
theorem C117_writer_destroy (server : Nat → Bool) (o : Obj) (hk : o.kind = .writer) {r : Nat} (hf : o.fd = some r) (log : List Ev)
    (hl : Live r log) {own del : Bool} (ho : o.own = some own) (hd : o.del = some del) :
    destroy server o log = .ok (if del = true ∨ own = true then .closed r :: log else log) := by
  obtain ⟨k, fd, own', del'⟩ := o
  simp only at hk hf ho hd; subst hk hf ho hd
  cases del <;> cases own <;> simp [destroy, destroyNamedWriter, set, closeOwned, Res.bind, closeHandle, hl]

/-- C117 (violated): a reader or a writer (with `delPipe`) closes a handle it was only lent. -/
theorem C117_borrowed_violated (server : Nat → Bool) (k : Kind) {r : Nat} (log : List Ev) (hl : Live r log)
    (hs : k = .reader → server r = true) :
    destroy server ⟨k, some r, some false, some true⟩ log = .ok (.closed r :: log) := by
  cases k with
  | reader => rw [C117_reader_destroy _ _ rfl]; simp [hs rfl, hl]
  | writer => rw [C117_writer_destroy _ _ rfl rfl log hl rfl rfl]; simp

example : Live 3 [.made 3] := by decide

/-- C117 (violated): so a handle that was taken out of the object with `getFileDescriptor()` is closed under its new owner. -/
theorem C117_given_up_violated {s s₁ s₂ : St} {i r : Nat} {k : Kind} {own : Option Bool} (hv : s.vars i = some ⟨k, some r, own, some true⟩)
    (hl : Live r s.log) (hs : k = .reader → s.server r = true) (h1 : step s (.get i false) = .ok s₁) (h2 : step s₁ (.drop i) = .ok s₂) :
    s₂.log = .closed r :: s.log := by
  simp only [step, hv, Res.ok.injEq] at h1
  subst h1
  have := C117_borrowed_violated s.server k s.log hl hs
  simp only [step, upd_self, this, Res.ok.injEq] at h2
  subst h2
  rfl

example : ∃ s, Reach step careful start s ∧ s.vars 0 = some ⟨.reader, some 0, some true, some true⟩ :=
  Reach.witness (step := step) (pre := careful) (s₀ := start) [.named .reader 0 true] (fun s => s.vars 0) _ (by decide)

/-- C117 (violated): a reader that owns a handle which is not the server's end of a named pipe never closes it. -/
theorem C117_owned_violated (server : Nat → Bool) {r : Nat} (hs : server r = false) (own del : Option Bool) (log : List Ev)
    (hl : Live r log) : destroy server ⟨.reader, some r, own, del⟩ log = .ok log := by
  rw [C117_reader_destroy _ _ rfl]; simp [hs, hl]

example : (fun r : Nat => r == 1) 3 = false ∧ Live 3 [.made 3] := by decide

/-- C117 (violated): default constructed objects cannot be used: opening, setting and moving them, and destroying a
writer, are undefined. -/
theorem C117_default_ub {s : St} {i : Nat} {k : Kind} {fd : Option Nat} (hv : s.vars i = some ⟨k, fd, none, none⟩) (j : Nat) (d : Bool)
    (h : Option Nat) :
    step s (.open i d) = .ub ∧ step s (.set i h d) = .ub ∧ step s (.moveCtor j i) = .ub ∧ step s (.moveAssign j i) = .ub ∧
    (k = .writer → step s (.drop i) = .ub) := by
  refine ⟨?_, ?_, ?_, ?_, ?_⟩
  · simp [step, hv, set, closeOwned, Res.bind]
  · simp [step, hv, set, closeOwned, Res.bind]
  · simp [step, hv]
  · simp only [step, hv]
    cases s.vars j <;> rfl
  · intro e; subst e; simp [step, hv, destroy]

example : ∃ s, step start (.default .writer 0) = .ok s ∧ s.vars 0 = some ⟨.writer, none, none, none⟩ := ⟨_, rfl, rfl⟩

/-- C117: putting a descriptor in, opening and failing to open close the handle that was owned, once, and nothing else; afterwards
the object holds exactly what was given, the handle just opened, or nothing. -/
theorem C117_replace {s : St} {i : Nat} {k : Kind} {fd : Option Nat} {own : Bool} {del : Option Bool}
    (hv : s.vars i = some ⟨k, fd, some own, del⟩) (hl : ∀ r, fd = some r → Live r s.log) :
    let log' := match fd with
      | some r => if own = true then .closed r :: s.log else s.log
      | none => s.log
    (∀ fd' own', ∃ s', step s (.set i fd' own') = .ok s' ∧ s'.vars = upd s.vars i (some ⟨k, fd', some own', del⟩) ∧ s'.log = log') ∧
    (∃ s', step s (.openFail i) = .ok s' ∧ s'.vars = upd s.vars i (some ⟨k, none, some false, del⟩) ∧ s'.log = log') ∧
    (∀ d, ∃ s', step s (.open i d) = .ok s' ∧ s'.vars = upd s.vars i (some ⟨k, some s.next, some true, some d⟩) ∧
      s'.log = .made s.next :: log' ∧ s'.next = s.next + 1 ∧ s'.server = upd s.server s.next (k == .reader)) := by
  cases fd with
  | none => cases own <;> simp [step, hv, set, closeOwned, Res.bind]
  | some r => cases own <;> simp [step, hv, set, closeOwned, Res.bind, closeHandle, hl r rfl]

example : ∃ s, Reach step careful start s ∧ s.vars 0 = some ⟨.writer, some 0, some true, some false⟩ :=
  Reach.witness (step := step) (pre := careful) (s₀ := start) [.named .writer 0 false] (fun s => s.vars 0) _ (by decide)

/-! ## Histories -/

/-- What the members of an object in use look like. -/
structure Good (server : Nat → Bool) (o : Obj) : Prop where
  own : o.own ≠ none
  owned : ∀ r, o.fd = some r → o.own = some true
  server : o.kind = .reader → ∀ r, o.fd = some r → server r = true
  del : o.kind = .writer → o.del ≠ none

structure Inv (s : St) : Prop where
  ledger : Ledger (owner s) s.log
  fresh : ∀ r, .made r ∈ s.log → r < s.next
  good : ∀ i o, s.vars i = some o → Good s.server o

theorem inv_start : Inv start := by
  refine ⟨Ledger.init.congr fun k => rfl, by simp [start], by simp [start]⟩

/-- `log'` follows from `log` by closing at most. -/
def Closes (log log' : List Ev) : Prop := ∀ r, Ev.made r ∈ log' → Ev.made r ∈ log

theorem closeOwned_good {own : Nat → Option Nat} {server : Nat → Bool} {o : Obj} {log : List Ev} {i : Nat} (h : Ledger own log)
    (hg : Good server o) (ho : own i = held (some o)) :
    ∃ log', closeOwned o log = .ok log' ∧ Ledger (upd own i none) log' ∧ Closes log log' := by
  obtain ⟨k, fd, ow, del⟩ := o
  cases fd with
  | none =>
    have hn : own i = none := by
      rw [ho]; unfold held; cases ow with
      | none => rfl
      | some b => cases b <;> rfl
    have : closeOwned ⟨k, none, ow, del⟩ log = .ok log := by
      cases ow with
      | none => exact absurd rfl hg.own
      | some b => cases b <;> rfl
    refine ⟨log, this, h.congr fun j => ?_, fun r hr => hr⟩
    by_cases hj : j = i
    · subst hj; simp [hn]
    · rw [upd_ne _ _ hj]
  | some r =>
    have := hg.owned r rfl
    simp only at this; subst this
    simp only [held] at ho
    refine ⟨.closed r :: log, ?_, h.close ho, fun q hq => by simpa using hq⟩
    simp [closeOwned, closeHandle, h.ownedLive i r ho]

theorem destroy_good {own : Nat → Option Nat} {server : Nat → Bool} {o : Obj} {log : List Ev} {i : Nat} (h : Ledger own log)
    (hg : Good server o) (ho : own i = held (some o)) :
    ∃ log', destroy server o log = .ok log' ∧ Ledger (upd own i none) log' ∧ Closes log log' := by
  cases hk : o.kind with
  | reader =>
    rw [C117_reader_destroy server o hk]
    obtain ⟨k, fd, ow, del⟩ := o
    simp only at hk; subst hk
    cases fd with
    | none =>
      obtain ⟨log', e, h1, h2⟩ := closeOwned_good h hg ho
      have : closeOwned ⟨.reader, none, ow, del⟩ log = .ok log := by
        cases ow with
        | none => exact absurd rfl hg.own
        | some b => cases b <;> rfl
      rw [this] at e; injection e with e; subst e
      exact ⟨log, rfl, h1, h2⟩
    | some r =>
      have := hg.owned r rfl
      simp only at this; subst this
      simp only [held] at ho
      refine ⟨.closed r :: log, ?_, h.close ho, fun q hq => by simpa using hq⟩
      simp [hg.server rfl r rfl, h.ownedLive i r ho]
  | writer =>
    obtain ⟨k, fd, ow, del⟩ := o
    simp only at hk; subst hk
    cases del with
    | none => exact absurd rfl (hg.del rfl)
    | some d =>
      cases d with
      | false => exact closeOwned_good h hg ho
      | true =>
        cases fd with
        | some r =>
          have := hg.owned r rfl
          simp only at this; subst this
          simp only [held] at ho
          refine ⟨.closed r :: log, ?_, h.close ho, fun q hq => by simpa using hq⟩
          rw [C117_writer_destroy server _ rfl rfl log (h.ownedLive i r ho) rfl rfl]
          simp
        | none =>
          obtain ⟨log', e, h1, h2⟩ := closeOwned_good h hg ho
          have : closeOwned ⟨.writer, none, ow, some true⟩ log = .ok log := by
            cases ow with
            | none => exact absurd rfl hg.own
            | some b => cases b <;> rfl
          rw [this] at e; injection e with e; subst e
          exact ⟨.closedNothing :: log, rfl, h1.nothing, fun q hq => by simpa using hq⟩

theorem owner_upd (s : St) (i k : Nat) (o : Option Obj) (sv : Nat → Bool) (n : Nat) (l : List Ev) :
    owner ⟨upd s.vars i o, sv, n, l⟩ k = upd (owner s) i (held o) k := by
  by_cases hk : k = i
  · subst hk; simp [owner]
  · simp [owner, upd, hk]

theorem good_server {s : St} (h : Inv s) {o : Obj} {i : Nat} (hv : s.vars i = some o) (b : Bool) : Good (upd s.server s.next b) o := by
  have hg := h.good i o hv
  refine ⟨hg.own, hg.owned, fun hk r hr => ?_, hg.del⟩
  have ho : owner s i = some r := by
    have := hg.owned r hr
    obtain ⟨k, fd, ow, del⟩ := o
    simp only at hr this; subst hr this
    simp [owner, hv, held]
  have := h.fresh r (h.ledger.ownedLive i r ho).1
  rw [upd_ne _ _ (by omega)]
  exact hg.server hk r hr

theorem not_made {s : St} (h : Inv s) : Ev.made s.next ∉ s.log ∧ Ev.closed s.next ∉ s.log := by
  have hn : Ev.made s.next ∉ s.log := fun hm => absurd (h.fresh _ hm) (by omega)
  exact ⟨hn, fun hm => hn (closed_made h.ledger.proper hm)⟩

theorem held_false (k : Kind) (fd : Option Nat) (del : Option Bool) : held (some ⟨k, fd, some false, del⟩) = none := rfl

theorem step_ok {s : St} {o : Op} (h : Inv s) (hp : careful s o) : ∃ s', step s o = .ok s' ∧ Inv s' := by
  cases o with
  | default k i => exact absurd hp id
  | set i fd own => exact absurd hp id
  | get i keep => exact absurd hp id
  | named k i del =>
    simp only [careful] at hp
    obtain ⟨hn, hc⟩ := not_made h
    refine ⟨_, rfl, ?_, ?_, ?_⟩
    · refine (h.ledger.make (i := i) (by simp [owner, hp, held]) hn hc).congr fun j => ?_
      rw [owner_upd]; rfl
    · intro r hr
      simp only [List.mem_cons, Ev.made.injEq] at hr
      rcases hr with rfl | hr
      · simp
      · have := h.fresh r hr; simp only; omega
    · intro j o hj
      by_cases e : j = i
      · subst e
        simp only [upd_self, Option.some.injEq] at hj
        subst hj
        refine ⟨by simp, by simp, ?_, by simp⟩
        intro hk r hr
        simp only [Option.some.injEq] at hr hk
        subst hr hk
        simp
      · simp only [upd_ne _ _ e] at hj
        exact good_server h hj _
  | namedFail k i del =>
    simp only [careful] at hp
    refine ⟨_, rfl, ?_, h.fresh, ?_⟩
    · refine h.ledger.congr fun j => ?_
      rw [owner_upd]
      by_cases e : j = i
      · subst e; simp [owner, hp, held]
      · rw [upd_ne _ _ e]
    · intro j o hj
      by_cases e : j = i
      · subst e
        simp only [upd_self, Option.some.injEq] at hj
        subst hj
        exact ⟨by simp, by simp, by simp, by simp⟩
      · simp only [upd_ne _ _ e] at hj
        exact h.good j o hj
  | moveCtor i j =>
    obtain ⟨h1, h2⟩ := hp
    obtain ⟨o, hv⟩ := Option.ne_none_iff_exists'.mp h2
    have hij : i ≠ j := fun e => by rw [e, hv] at h1; cases h1
    have hg := h.good j o hv
    obtain ⟨k, fd, ow, del⟩ := o
    cases ow with
    | none => exact absurd rfl hg.own
    | some ow =>
      have hd : ¬ (k = .writer ∧ del = none) := fun e => hg.del e.1 e.2
      refine ⟨⟨upd (upd s.vars i (some ⟨k, fd, some ow, del⟩)) j (some ⟨k, none, some false, some false⟩), s.server, s.next, s.log⟩,
        by simp only [step, hv]; rw [if_neg hd], ?_, h.fresh, ?_⟩
      · refine (h.ledger.move (i := i) (j := j) (by simp [owner, h1, held]) hij).congr fun a => ?_
        by_cases ea : a = j
        · subst ea; simp [owner, held]
        · by_cases ei : a = i
          · subst ei; simp [owner, upd, ea, hv]
          · simp [owner, upd, ea, ei]
      · intro a o ho
        by_cases ea : a = j
        · subst ea; simp at ho; subst ho; exact ⟨by simp, by simp, by simp, by simp⟩
        · by_cases ei : a = i
          · subst ei; simp [upd, ea] at ho; subst ho; exact hg
          · simp [upd, ea, ei] at ho; exact h.good a o ho
  | moveAssign i j =>
    obtain ⟨h1, h2, hkk, h3, hij⟩ := hp
    obtain ⟨o, hv⟩ := Option.ne_none_iff_exists'.mp h2
    obtain ⟨w, hw⟩ := Option.ne_none_iff_exists'.mp h1
    have hg := h.good j o hv
    obtain ⟨k, fd, ow, del⟩ := o
    cases ow with
    | none => exact absurd rfl hg.own
    | some ow =>
      have hd : ¬ (k = .writer ∧ del = none) := fun e => hg.del e.1 e.2
      refine ⟨⟨upd (upd s.vars i (some ⟨k, fd, some ow, del⟩)) j (some ⟨k, none, some false, some false⟩), s.server, s.next, s.log⟩,
        by simp only [step, hv, hw]; rw [if_neg hd], ?_, h.fresh, ?_⟩
      · refine (h.ledger.move (i := i) (j := j) h3 hij).congr fun a => ?_
        by_cases ea : a = j
        · subst ea; simp [owner, held]
        · by_cases ei : a = i
          · subst ei; simp [owner, upd, ea, hv]
          · simp [owner, upd, ea, ei]
      · intro a o ho
        by_cases ea : a = j
        · subst ea; simp at ho; subst ho; exact ⟨by simp, by simp, by simp, by simp⟩
        · by_cases ei : a = i
          · subst ei; simp [upd, ea] at ho; subst ho; exact hg
          · simp [upd, ea, ei] at ho; exact h.good a o ho
  | «open» i del =>
    simp only [careful] at hp
    obtain ⟨o, hv⟩ := Option.ne_none_iff_exists'.mp hp
    have hg := h.good i o hv
    obtain ⟨log', e, hl, hcl⟩ := closeOwned_good h.ledger hg (i := i) (by simp [owner, hv])
    obtain ⟨hn, -⟩ := not_made h
    have hn' : Ev.made s.next ∉ log' := fun hm => hn (hcl _ hm)
    have hc' : Ev.closed s.next ∉ log' := fun hm => hn' (closed_made hl.proper hm)
    refine ⟨⟨upd s.vars i (some ⟨o.kind, some s.next, some true, some del⟩), upd s.server s.next (o.kind == .reader), s.next + 1, .made s.next :: log'⟩,
      by simp only [step, hv, set, e, Res.bind]; rfl, ?_, ?_, ?_⟩
    · refine (hl.make (i := i) (by simp) hn' hc').congr fun j => ?_
      rw [owner_upd]
      by_cases ej : j = i
      · subst ej; simp [held]
      · simp [upd_ne _ _ ej]
    · intro r hr
      simp only [List.mem_cons, Ev.made.injEq] at hr
      rcases hr with rfl | hr
      · simp
      · have := h.fresh r (hcl r hr); simp only; omega
    · intro j o' hj
      by_cases ej : j = i
      · subst ej
        simp only [upd_self, Option.some.injEq] at hj
        subst hj
        refine ⟨by simp, by simp, ?_, by simp⟩
        intro hk r hr
        simp only [Option.some.injEq] at hr hk
        subst hr
        simp [hk]
      · simp only [upd_ne _ _ ej] at hj
        exact good_server h hj _
  | openFail i =>
    simp only [careful] at hp
    obtain ⟨o, hv⟩ := Option.ne_none_iff_exists'.mp hp
    have hg := h.good i o hv
    obtain ⟨log', e, hl, hcl⟩ := closeOwned_good h.ledger hg (i := i) (by simp [owner, hv])
    refine ⟨⟨upd s.vars i (some ⟨o.kind, none, some false, o.del⟩), s.server, s.next, log'⟩,
      by simp [step, hv, set, e, Res.bind], ?_, fun r hr => h.fresh r (hcl r hr), ?_⟩
    · refine hl.congr fun j => ?_
      rw [owner_upd]; rfl
    · intro j o' hj
      by_cases ej : j = i
      · subst ej
        simp only [upd_self, Option.some.injEq] at hj
        subst hj
        exact ⟨by simp, by simp, by simp, hg.del⟩
      · simp only [upd_ne _ _ ej] at hj
        exact h.good j o' hj
  | drop i =>
    simp only [careful] at hp
    obtain ⟨o, hv⟩ := Option.ne_none_iff_exists'.mp hp
    have hg := h.good i o hv
    obtain ⟨log', e, hl, hcl⟩ := destroy_good h.ledger hg (i := i) (by simp [owner, hv])
    refine ⟨⟨upd s.vars i none, s.server, s.next, log'⟩, by simp [step, hv, e], ?_, fun r hr => h.fresh r (hcl r hr), ?_⟩
    · refine hl.congr fun j => ?_
      rw [owner_upd]; rfl
    · intro j o' hj
      by_cases ej : j = i
      · subst ej; simp at hj
      · simp only [upd_ne _ _ ej] at hj
        exact h.good j o' hj

theorem reach_inv {s : St} (h : Reach step careful start s) : Inv s :=
  Reach.inv inv_start (fun _ _ _ hi hp he => by
    obtain ⟨s', e, h'⟩ := step_ok hi hp
    rw [e] at he; injection he with he; subst he; exact h') h

/-- C117 (partial: readers and writers made from names, moved and reopened; no default construction, no handles put in or
taken out, no assignment over an object that holds a handle): no call is undefined, every handle is closed at most once and
always has exactly one owner; when all objects are gone each handle has been closed exactly once. -/
theorem C117_handles_partial {s : St} (h : Reach step careful start s) :
    Ledger (owner s) s.log ∧ ((∀ i, s.vars i = none) → ReleasedOnce s.log) ∧ ∀ o, careful s o → ∃ s', step s o = .ok s' := by
  have hi := reach_inv h
  refine ⟨hi.ledger, fun hv => hi.ledger.releasedOnce fun i => by simp [owner, hv, held], fun o ho => ?_⟩
  obtain ⟨s', hs, -⟩ := step_ok hi ho
  exact ⟨s', hs⟩

example : ∃ s, Reach step careful start s ∧ s.log = [.closedNothing, .closed 2, .closed 1, .made 2, .closed 0, .made 1, .made 0] :=
  Reach.witness (step := step) (pre := careful) (s₀ := start)
    [.named .reader 0 false, .named .writer 1 true, .moveCtor 2 0, .open 2 false, .drop 1, .moveAssign 0 2, .namedFail .writer 5 true, .drop 0, .drop 5, .drop 2]
    (fun s => s.log) _ (by decide +kernel)

/-- C117 (violated): assigning to an object that holds a handle loses that handle. -/
theorem C117_assign_violated {s s' : St} (h : Reach step careful start s) {i j r : Nat} (hij : i ≠ j) (ho : owner s i = some r)
    (hs : step s (.moveAssign i j) = .ok s') : Live r s'.log ∧ ∀ k, owner s' k ≠ some r := by
  have hi := reach_inv h
  have hl := hi.ledger.ownedLive i r ho
  cases hv : s.vars j with
  | none => simp only [step, hv] at hs; cases hh : s.vars i <;> simp [hh] at hs
  | some o =>
    cases hw : s.vars i with
    | none => simp [owner, hw, held] at ho
    | some w =>
      have hg := hi.good j o hv
      obtain ⟨k, fd, ow, del⟩ := o
      cases ow with
      | none => exact absurd rfl hg.own
      | some ow =>
        have hd : ¬ (k = .writer ∧ del = none) := fun e => hg.del e.1 e.2
        simp only [step, hv, hw] at hs
        rw [if_neg hd] at hs
        injection hs with hs; subst hs
        refine ⟨hl, fun a ha => ?_⟩
        by_cases ea : a = j
        · subst ea; simp [owner, held] at ha
        · by_cases ei : a = i
          · subst ei
            have : owner s j = some r := by simpa [owner, upd, ea, hv] using ha
            exact hij (hi.ledger.unique _ _ _ ho this)
          · have : owner s a = some r := by simpa [owner, upd, ea, ei] using ha
            exact ei (hi.ledger.unique _ _ _ this ho)

example : ∃ s, Reach step careful start s ∧ (owner s 0, owner s 1) = (some 0, some 1) :=
  Reach.witness (step := step) (pre := careful) (s₀ := start) [.named .reader 0 false, .named .reader 1 true] (fun s => (owner s 0, owner s 1)) _ (by decide)

/-! ## The stream with two ends -/

/-- C117: destroying a stream closes both its handles once — whoever owns them — and (violated) then disconnects the reader's handle, and with
`delPipe` closes the writer's, although both values may stand for other handles by now. -/
theorem C117_stream_destroy (server : Nat → Bool) (r w : Nat) (hrw : r ≠ w) (log : List Ev) (hr : Live r log) (hw : Live w log)
    (own own' del' : Option Bool) (del : Bool) :
    Stream.destroy server ⟨⟨.writer, some w, own, some del⟩, ⟨.reader, some r, own', del'⟩⟩ log =
      .ok ((if del then [.closedForeign] else []) ++ .closedForeign :: .closed w :: .closed r :: log) := by
  have hw' : Live w (.closed r :: log) := ⟨by simp [hw.1], by simp [hw.2, Ne.symm hrw]⟩
  have nr : ¬ Live r (.closed w :: .closed r :: log) := fun h => h.2 (by simp)
  have nw : ¬ Live w (.closedForeign :: .closed w :: .closed r :: log) := fun h => h.2 (by simp)
  have hd : Stream.deinit ⟨⟨.writer, some w, own, some del⟩, ⟨.reader, some r, own', del'⟩⟩ log =
      (⟨⟨.writer, some w, some false, some del⟩, ⟨.reader, some r, some false, del'⟩⟩, .closed w :: .closed r :: log) := by
    simp [Stream.deinit, closeHandle, hr, hw']
  simp only [Stream.destroy, hd]
  rw [C117_reader_destroy _ _ rfl]
  simp only [nr, not_false_eq_true, if_true, Res.bind]
  cases del <;> simp [destroy, destroyNamedWriter, closeHandle, set, closeOwned, Res.bind, nw]

example : Live 0 [.made 1, .made 0] ∧ Live 1 [.made 1, .made 0] ∧ (0 : Nat) ≠ 1 := by decide

/-- C117 (violated): a stream that was lent one handle closes it when it goes, and goes on to close and disconnect whatever its value stands for then. -/
theorem C117_stream_borrowed_violated (server : Nat → Bool) (s : Stream) (r : Nat) (log : List Ev) (hl : Live r log)
    (hw : s.writer.fd = none ∧ s.writer.own ≠ none ∧ s.writer.kind = .writer) (hr : s.reader.fd = none ∧ s.reader.own ≠ none ∧ s.reader.kind = .reader)
    (hd : s.writer.del = some true) :
    ∃ s', Stream.set s (some r) false log = .ok (s', log) ∧
      Stream.destroy server s' log = .ok (.closedForeign :: .closedForeign :: .closedForeign :: .closed r :: log) := by
  obtain ⟨⟨k, fd, ow, del⟩, ⟨k', fd', ow', del'⟩⟩ := s
  obtain ⟨h1, h2, h3⟩ := hw
  obtain ⟨h4, h5, h6⟩ := hr
  simp only at h1 h2 h3 h4 h5 h6 hd
  subst h1 h3 h4 h6 hd
  obtain ⟨b, rfl⟩ := Option.ne_none_iff_exists'.mp h2
  obtain ⟨b', rfl⟩ := Option.ne_none_iff_exists'.mp h5
  have nr : ¬ Live r (.closed r :: log) := fun h => h.2 (by simp)
  have nr' : ¬ Live r (.closedForeign :: .closed r :: log) := fun h => h.2 (by simp)
  have nr2 : ¬ Live r (.closedForeign :: .closedForeign :: .closed r :: log) := fun h => h.2 (by simp)
  refine ⟨⟨⟨.writer, some r, some false, some true⟩, ⟨.reader, some r, some false, del'⟩⟩, ?_, ?_⟩
  · cases b <;> cases b' <;> rfl
  · simp only [Stream.destroy, Stream.deinit, closeHandle, hl, nr, if_true, if_false, reduceCtorEq]
    rw [C117_reader_destroy _ _ rfl]
    simp [nr', nr2, destroy, destroyNamedWriter, closeHandle, set, closeOwned, Res.bind]

example : (⟨⟨.writer, none, some true, some true⟩, ⟨.reader, none, some true, none⟩⟩ : Stream).writer.own ≠ none := by decide

/-- C117 (violated): if only one end could be opened, `open` reports the last error and drops that end: it stays open and
the stream does not hold it. -/
theorem C117_stream_open_violated (s : Stream) (x : Nat) (rw' : Option Nat × Option Nat) (e : Int) (log : List Ev) (hl : Live x log)
    (h : rw' = (some x, none) ∨ rw' = (none, some x)) (hr : s.reader.fd ≠ some x) (hw : s.writer.fd ≠ some x) :
    ∃ s' log', Stream.open s rw'.1 rw'.2 e log = .ok (e, s', log') ∧ Live x log' ∧ s'.reader.fd ≠ some x ∧ s'.writer.fd ≠ some x := by
  have hlive : Live x (s.deinit log).2 := by
    obtain ⟨⟨_, fw, _, _⟩, ⟨_, fr, _, _⟩⟩ := s
    obtain ⟨h1, h2⟩ := hl
    simp only at hr hw
    refine ⟨?_, ?_⟩
    · simp only [Stream.deinit, closeHandle]
      repeat' split
      all_goals simp_all
    · simp only [Stream.deinit, closeHandle]
      repeat' split
      all_goals simp_all
      all_goals grind
  refine ⟨(s.deinit log).1, (s.deinit log).2, ?_, hlive, hr, hw⟩
  rcases h with h | h <;> subst h <;> simp [Stream.open]

example : Live 4 [.made 4, .made 3, .made 2] ∧ (some 2 : Option Nat) ≠ some 4 := by decide

/-- C117 (violated): after that error the stream still names the handles it has closed: when it goes it closes and disconnects whatever
their values stand for then. -/
theorem C117_stream_reopen_violated (server : Nat → Bool) (r w : Nat) (hrw : r ≠ w) (log : List Ev) (hr : Live r log) (hw : Live w log)
    (own own' del' : Option Bool) (e : Int) :
    ∃ s' log', Stream.open ⟨⟨.writer, some w, own, some false⟩, ⟨.reader, some r, own', del'⟩⟩ none none e log = .ok (e, s', log') ∧
      log' = .closed w :: .closed r :: log ∧
      Stream.destroy server s' log' = .ok (.closedForeign :: .closedForeign :: .closedForeign :: log') := by
  have hw' : Live w (.closed r :: log) := ⟨by simp [hw.1], by simp [hw.2, Ne.symm hrw]⟩
  refine ⟨⟨⟨.writer, some w, some false, some false⟩, ⟨.reader, some r, some false, del'⟩⟩, .closed w :: .closed r :: log, ?_, rfl, ?_⟩
  · simp [Stream.open, Stream.deinit, closeHandle, hr, hw']
  · have n1 : ¬ Live r (.closed w :: .closed r :: log) := fun h => h.2 (by simp)
    have n2 : ¬ Live w (.closedForeign :: .closed w :: .closed r :: log) := fun h => h.2 (by simp)
    have n3 : ¬ Live r (.closedForeign :: .closedForeign :: .closed w :: .closed r :: log) := fun h => h.2 (by simp)
    have hd : Stream.deinit ⟨⟨.writer, some w, some false, some false⟩, ⟨.reader, some r, some false, del'⟩⟩ (.closed w :: .closed r :: log) =
        (⟨⟨.writer, some w, some false, some false⟩, ⟨.reader, some r, some false, del'⟩⟩, .closedForeign :: .closedForeign :: .closed w :: .closed r :: log) := by
      simp [Stream.deinit, closeHandle, n1, n2]
    simp only [Stream.destroy, hd]
    rw [C117_reader_destroy _ _ rfl]
    simp [n3, destroy, closeOwned, Res.bind]

example : Live 0 [.made 1, .made 0] ∧ Live 1 [.made 1, .made 0] ∧ (0 : Nat) ≠ 1 := by decide

/-- C117: if both could be opened, the stream owns them, and what it held before has been closed. -/
theorem C117_stream_open (s : Stream) (r w : Nat) (e : Int) (log : List Ev) :
    ∃ s', Stream.open s (some r) (some w) e log = .ok (0, s', (s.deinit log).2) ∧
      (s'.reader.fd, s'.reader.own, s'.writer.fd, s'.writer.own, s'.writer.del) = (some r, some true, some w, some true, s.writer.del) := by
  exact ⟨⟨{ s.writer with fd := some w, own := some true }, { s.reader with fd := some r, own := some true }⟩, by simp [Stream.open, Stream.deinit, set, closeOwned, Res.bind], rfl⟩

/-! ## C119: the unnamed pipe -/

/-- C119 (violated): constructing a pipe reads a flag that was never written, if the pipe could be created; if it could not,
destroying the object does. -/
theorem C119_ctor_ub (log : List Ev) :
    (∀ r w, pipeCtor none (some (r, w)) log = .ub) ∧ ∃ p, pipeCtor none none log = .ok (p, log) ∧ pipeDestroy p log = .ub :=
  ⟨fun _ _ => rfl, _, rfl, rfl⟩

/-- C119 (violated): and whatever that flag reads as, the status says success (0) exactly if the pipe could not be created. -/
theorem C119_status_violated (b : Bool) (created : Option (Nat × Nat)) (log : List Ev) :
    ∃ p log', pipeCtor (some b) created log = .ok (p, log') ∧ ∃ st, pipeStatus p = .ok st ∧ (st = 0 ↔ created = none) := by
  cases created with
  | none => exact ⟨_, _, rfl, _, rfl, by simp⟩
  | some rw' => cases b <;> exact ⟨_, _, rfl, _, rfl, by simp⟩

/-- C119 (partial: the flag reads as something): a created pipe closes both its ends exactly once, also when it was moved, and
the pipe it was moved from closes nothing. -/
theorem C119_handles_partial (b : Bool) {r w : Nat} (hrw : r ≠ w) (log : List Ev) (hr : Live r log) (hw : Live w log) :
    ∃ p, pipeCtor (some b) (some (r, w)) log = .ok (p, log) ∧ pipeDestroy p log = .ok (.closed r :: .closed w :: log) ∧
      ∃ q p', pipeMove p = .ok (q, p') ∧ pipeDestroy p' log = .ok log ∧ pipeDestroy q log = .ok (.closed r :: .closed w :: log) := by
  have hr' : Live r (.closed w :: log) := ⟨by simp [hr.1], by simp [hr.2, hrw]⟩
  have e : pipeDestroy ⟨some 1, ⟨.reader, some r, some true, none⟩, ⟨.writer, some w, some true, none⟩⟩ log = .ok (.closed r :: .closed w :: log) := by
    simp [pipeDestroy, closeOwned, closeHandle, Res.bind, hw, hr']
  refine ⟨⟨some 1, ⟨.reader, some r, some true, none⟩, ⟨.writer, some w, some true, none⟩⟩, ?_, e,
    ⟨none, ⟨.reader, some r, some true, none⟩, ⟨.writer, some w, some true, none⟩⟩,
    ⟨some 1, ⟨.reader, none, some false, none⟩, ⟨.writer, none, some false, none⟩⟩, rfl, rfl, e⟩
  cases b <;> rfl

example : (3 : Nat) ≠ 4 ∧ Live 3 [.made 4, .made 3] ∧ Live 4 [.made 4, .made 3] := by decide

/-- C119 (violated): asking a pipe that was made by moving for its status is undefined. -/
theorem C119_moved_status_ub {p q p' : Pipe} (h : pipeMove p = .ok (q, p')) : pipeStatus q = .ub := by
  unfold pipeMove at h
  split at h
  · simp only [Res.ok.injEq, Prod.mk.injEq] at h; rw [← h.1]; rfl
  · cases h

example : ∃ q p', pipeMove ⟨some 1, ⟨.reader, some 3, some true, none⟩, ⟨.writer, some 4, some true, none⟩⟩ = .ok (q, p') := ⟨_, _, rfl⟩

/-- C119: assigning hands over both ends and the ownership of them; the status is success whatever the source's was (which,
C119_status_violated, a pipe that was created does not have). -/
theorem C119_assign {p q p' q' : Pipe} (h : pipeAssign p q = .ok (p', q')) :
    p'.reader = q.reader ∧ p'.writer = q.writer ∧ pipeStatus p' = .ok 0 ∧ ∀ log, pipeDestroy q' log = .ok log := by
  unfold pipeAssign at h
  split at h
  · simp only [Res.ok.injEq, Prod.mk.injEq] at h
    obtain ⟨rfl, rfl⟩ := h
    exact ⟨rfl, rfl, rfl, fun log => by simp [pipeDestroy, closeOwned, Res.bind]⟩
  · cases h

example : ∃ p' q', pipeAssign ⟨some 1, ⟨.reader, some 1, some true, none⟩, ⟨.writer, some 2, some true, none⟩⟩
    ⟨some 1, ⟨.reader, some 3, some true, none⟩, ⟨.writer, some 4, some true, none⟩⟩ = .ok (p', q') := ⟨_, _, rfl⟩

/-- C119 (violated): assigning to a pipe loses what it held: neither pipe names those handles afterwards, though nothing was
closed. -/
theorem C119_assign_violated {p q p' q' : Pipe} {x : Nat} (h : pipeAssign p q = .ok (p', q')) (_hp : p.reader.fd = some x ∨ p.writer.fd = some x)
    (hq : q.reader.fd ≠ some x ∧ q.writer.fd ≠ some x) {log log₁ log₂ : List Ev} (hl : Live x log)
    (h1 : pipeDestroy p' log = .ok log₁) (h2 : pipeDestroy q' log₁ = .ok log₂) : Live x log₂ := by
  have hc : ∀ (o : Obj) (l l' : List Ev), o.fd ≠ some x → Live x l → closeOwned o l = .ok l' → Live x l' := by
    intro o l l' ho hx he
    unfold closeOwned at he
    split at he
    · cases he
    · injection he with he; subst he; exact hx
    · split at he
      · next y hy =>
        injection he with he; subst he
        rw [hy] at ho
        simp only [closeHandle, hy]
        obtain ⟨a, c⟩ := hx
        split
        · exact ⟨by simp [a], by simp only [List.mem_cons, Ev.closed.injEq, not_or]; exact ⟨fun e => ho (by rw [e]), c⟩⟩
        · exact ⟨by simp [a], by simp [c]⟩
      · injection he with he; subst he; exact hx
  have hd : ∀ (u : Pipe) (l l' : List Ev), u.reader.fd ≠ some x → u.writer.fd ≠ some x → Live x l → pipeDestroy u l = .ok l' → Live x l' := by
    intro u l l' hr hw hx he
    unfold pipeDestroy at he
    cases e : closeOwned u.writer l with
    | ok m => rw [e] at he; exact hc _ _ _ hr (hc _ _ _ hw hx e) he
    | ub => rw [e] at he; cases he
    | loop => rw [e] at he; cases he
  unfold pipeAssign at h
  split at h
  · simp only [Res.ok.injEq, Prod.mk.injEq] at h
    obtain ⟨e1, e2⟩ := h
    subst e1 e2
    exact hd _ _ _ (by simp) (by simp) (hd _ _ _ hq.1 hq.2 hl h1) h2
  · cases h

example : ∃ p' q', pipeAssign ⟨some 0, ⟨.reader, some 1, some true, none⟩, ⟨.writer, some 2, some true, none⟩⟩
    ⟨some 0, ⟨.reader, some 3, some true, none⟩, ⟨.writer, some 4, some true, none⟩⟩ = .ok (p', q') ∧
    ∃ l₁, pipeDestroy p' [.made 4, .made 3, .made 2, .made 1] = .ok l₁ ∧ ∃ l₂, pipeDestroy q' l₁ = .ok l₂ :=
  ⟨_, _, rfl, _, rfl, _, rfl⟩

namespace Flame.WinPipe
example := C117_reader_destroy (fun r => r == 1) ⟨.reader, some 3, some true, none⟩ rfl [.made 3]
example := C117_writer_destroy (fun r => r == 1) ⟨.writer, some 3, some true, some false⟩ rfl rfl [.made 3] (by decide) rfl rfl
end Flame.WinPipe

end Flame.WinPipe
