import Verif.Life.ExpectedVar

/-! # C34: `templates::Expected` invokes exactly the matching handler -/

namespace Flame.Life.ExpectedVar
open Flame.Own Flame.Life.Variant

variable {V : Type} {moved : V → V}

theorem nodup_pack : pack.Nodup := by decide

theorem declared_safe {s : St V} {o : Op V} (h : declared s o) : safe s (toVariant o) := by
  cases o <;> exact ⟨h, trivial⟩

theorem step_ok {s : St V} (h : Inv pack s) {o : Op V} (hp : declared s o) :
    ∃ s', step moved s o = .ok s' ∧ Inv pack s' ∧
      (careful s o → contents pack s' = spec moved (contents pack s) o) := by
  obtain ⟨s', h1, h2, h3⟩ := Variant.step_ok (moved := moved) nodup_pack h (declared_safe hp)
  refine ⟨s', h1, h2, fun hc => ?_⟩
  have hs := declared_safe hp
  have p0 : (0 : Nat) ∈ pack := by decide
  have p1 : (1 : Nat) ∈ pack := by decide
  cases o with
  | declare i => exact h3 ⟨hs, trivial⟩
  | fromResult i v => exact (h3 ⟨hs, trivial⟩).trans (by simp [toVariant, Variant.spec, spec, p0])
  | fromError i v => exact (h3 ⟨hs, trivial⟩).trans (by simp [toVariant, Variant.spec, spec, p1])
  | copy i j => exact h3 ⟨hs, hc.2⟩
  | moveCtor i j => exact h3 ⟨hs, trivial⟩
  | assign i j => exact h3 ⟨hs, hc.2⟩
  | moveAssign i j => exact h3 ⟨hs, hc.2⟩
  | setResult i v => exact (h3 ⟨hs, trivial⟩).trans (by simp [toVariant, Variant.spec, spec, p0])
  | setErrorConst i v => exact hc.2.elim
  | setErrorMove i v => exact (h3 ⟨hs, trivial⟩).trans (by simp [toVariant, Variant.spec, spec, p1])
  | done i => exact h3 ⟨hs, trivial⟩
  | drop i => exact h3 ⟨hs, trivial⟩

/-- What can be reached: operations and chains of handlers. -/
inductive Run (moved : V → V) : St V → Prop
  | start : Run moved init
  | step {s s' : St V} {o : Op V} : Run moved s → declared s o → step moved s o = .ok s' → Run moved s'
  | chain {s s' : St V} {i : Nat} {hs : List Handler} {cs : List (Nat × V)} :
      Run moved s → chain moved s i hs = .ok (s', cs) → Run moved s'

theorem handle_ok {s : St V} (h : Inv pack s) {i : Nat} {x : Var V} (hx : s.vars i = some x) (f : Handler) :
    ∃ s', handle moved s i f = .ok (s', match holds pack x with
        | some (t, v) => if f.ty = t then [(t, v)] else []
        | none => []) ∧ Inv pack s' ∧
      (∀ k, k ≠ i → s'.vars k = s.vars k) ∧
      ∃ x', s'.vars i = some x' ∧ holds pack x' = (holds pack x).map fun p =>
        (p.1, if f.ty = p.1 ∧ f.takes = true then moved p.2 else p.2) := by
  cases hg : getType pack x f.ty with
  | some k =>
    obtain ⟨c, hc, hty, h0, ht⟩ := getType_member (h.wf i x hx) hg
    obtain ⟨c', hc', hty', hlt⟩ := h.wf i x hx h0
    rw [hc] at hc'
    injection hc' with hc'
    subst hc'
    have hk : x.index.toNat = k := by omega
    have hh : holds pack x = some (f.ty, c.val) := by
      simp only [holds, if_pos h0, hc, hk, ht]
    have hu := use_inv h hx h0 hc
    have hr := read_ok h hx h0 hc hty
    obtain ⟨n, m⟩ := x
    simp only at hc h0 hk
    subst hc
    refine ⟨if f.takes then takeFrom moved { s with log := .used c.obj :: s.log } i
      else { s with log := .used c.obj :: s.log }, ?_, ?_, ?_, ?_⟩
    · simp only [handle, hx, hg, hr, hh, if_pos]
    · split
      · exact takeFrom_inv hu i
      · exact hu
    · intro q hq
      split
      · simp only [takeFrom, hx]
        exact upd_ne _ _ hq
      · rfl
    · cases htk : f.takes with
      | true =>
        refine ⟨⟨n, some { c with val := moved c.val }⟩, ?_, ?_⟩
        · simp [takeFrom, hx]
        · rw [hh]
          simp [holds, h0, hk, ht]
      | false =>
        refine ⟨⟨n, some c⟩, by simp [hx], ?_⟩
        rw [hh]; simp
  | none =>
    have hne : ∀ t v, holds pack x = some (t, v) → f.ty ≠ t := by
      intro t v hv e
      unfold holds at hv
      split at hv
      · rename_i h0
        obtain ⟨c, hc, hty, hlt⟩ := h.wf i x hx h0
        rw [hc, List.getElem?_eq_getElem hlt] at hv
        simp only [Option.some.injEq, Prod.mk.injEq] at hv
        have hm : f.ty ∈ pack := by rw [e, ← hv.1]; exact List.getElem_mem hlt
        obtain ⟨k, hk, hke⟩ := setIndex_mem pack f.ty hm
        have : k = x.index.toNat := getElem?_inj nodup_pack hke (by rw [List.getElem?_eq_getElem hlt, hv.1, e])
        unfold getType at hg
        rw [typeIndex_eq, if_pos ⟨by omega, h0⟩, member_eq, if_pos (by omega)] at hg
        cases hg
      · cases hv
    refine ⟨s, ?_, h, fun _ _ => rfl, x, hx, ?_⟩
    · simp only [handle, hx, hg]
      cases hh : holds pack x with
      | none => rfl
      | some p => simp only [if_neg (hne p.1 p.2 hh)]
    · cases hh : holds pack x with
      | none => rfl
      | some p => simp [hne p.1 p.2 hh]

/-- The calls of a chain on whatever is held. -/
def expectedCalls (moved : V → V) (o : Option (Nat × V)) (hs : List Handler) : List (Nat × V) := match o with
  | some (t, v) => calls moved t v hs
  | none => []

theorem expectedCalls_cons (o : Option (Nat × V)) (f : Handler) (hs : List Handler) :
    expectedCalls moved o (f :: hs) = (match o with
        | some (t, v) => if f.ty = t then [(t, v)] else []
        | none => []) ++
      expectedCalls moved (o.map fun p => (p.1, if f.ty = p.1 ∧ f.takes = true then moved p.2 else p.2)) hs := by
  cases o with
  | none => rfl
  | some p =>
    obtain ⟨t, v⟩ := p
    by_cases ht : f.ty = t
    · simp [expectedCalls, calls, ht]
    · simp [expectedCalls, calls, ht]

theorem chain_ok : ∀ (hs : List Handler) {s : St V}, Inv pack s → ∀ {i : Nat} {x : Var V}, s.vars i = some x →
    ∃ s', chain moved s i hs = .ok (s', expectedCalls moved (holds pack x) hs) ∧ Inv pack s' ∧
      (∀ k, k ≠ i → s'.vars k = s.vars k) ∧ (s'.vars i).isSome
  | [], s, h, i, x, hx => ⟨s, by
      unfold expectedCalls
      cases holds pack x <;> rfl, h, fun _ _ => rfl, by simp [hx]⟩
  | f :: hs, s, h, i, x, hx => by
    obtain ⟨s1, h1, h2, h3, x1, hx1, hh1⟩ := handle_ok (moved := moved) h hx f
    obtain ⟨s2, g1, g2, g3, g4⟩ := chain_ok hs h2 hx1
    refine ⟨s2, ?_, g2, fun k hk => (g3 k hk).trans (h3 k hk), g4⟩
    simp only [chain, h1, g1]
    rw [expectedCalls_cons, hh1]

theorem chain_undeclared {s : St V} {i : Nat} (hi : s.vars i = none) : ∀ (f : Handler) (hs : List Handler),
    chain moved s i (f :: hs) = .ub := by
  intro f hs
  simp [chain, handle, hi]

theorem run_inv {s : St V} (hr : Run moved s) : Inv pack s := by
  induction hr with
  | start => exact inv_init
  | step _ hp he ih =>
    obtain ⟨t, ht, hi, _⟩ := step_ok (moved := moved) ih hp
    rw [ht] at he
    injection he with he
    subst he
    exact hi
  | @chain s s' i hs cs _ he ih =>
    cases hx : s.vars i with
    | none =>
      cases hs with
      | nil => simp only [chain] at he; injection he with he; injection he with he _; subst he; exact ih
      | cons f hs => rw [chain_undeclared hx] at he; cases he
    | some x =>
      obtain ⟨t, ht, hi, _⟩ := chain_ok (moved := moved) hs ih hx
      rw [ht] at he
      injection he with he
      injection he with he _
      subst he
      exact hi

end Flame.Life.ExpectedVar

namespace Flame
open Own Life.Variant Life.ExpectedVar

variable {V : Type} {moved : V → V}

/-- In every reachable state, a chain of handlers of any length, on a const or non-const `Expected`, does nothing
undefined and calls exactly the handlers matching what is stored, in order, with the stored value. -/
theorem C34_exactly_matching_handlers {s : St V} (hr : Run moved s) {i : Nat} {o : Option (Nat × V)}
    (hi : contents pack s i = some o) (hs : List Handler) :
    (∃ s', chain moved s i hs = .ok (s', match o with
      | some (t, v) => calls moved t v hs
      | none => [])) ∧
    (∃ s', chainConst moved s i hs = .ok (s', match o with
      | some (t, v) => (hs.filter fun h => h.ty = t).map fun _ => (t, v)
      | none => [])) := by
  have hinv := run_inv hr
  cases hx : s.vars i with
  | none => simp [contents, hx] at hi
  | some x =>
    have hh : holds pack x = o := by simpa [contents, hx] using hi
    constructor
    · obtain ⟨s', h1, _⟩ := chain_ok (moved := moved) hs hinv hx
      refine ⟨s', h1.trans ?_⟩
      rw [hh]
      cases o <;> rfl
    · obtain ⟨s', h1, _⟩ := chain_ok (moved := moved) (hs.map fun h => { h with takes := false }) hinv hx
      refine ⟨s', h1.trans ?_⟩
      rw [hh]
      cases o with
      | none => rfl
      | some p =>
        have : ∀ (l : List Handler), calls moved p.1 p.2 (l.map fun h => { h with takes := false }) =
            (l.filter fun h => h.ty = p.1).map fun _ => (p.1, p.2) := by
          intro l
          induction l with
          | nil => rfl
          | cons h l ih =>
            by_cases e : h.ty = p.1
            · simpa [calls, e] using ih
            · simpa [calls, e] using ih
        simp only [expectedCalls]
        rw [this]

example : calls (fun _ => 0) 0 55 [⟨0, true⟩, ⟨1, true⟩, ⟨0, false⟩] = [(0, 55), (0, 0)] := by decide

/-- In particular: the number of calls is the number of handlers of the stored kind, and no handler of the other
kind is called. -/
theorem C34_calls_kind (t : Nat) (v : V) (hs : List Handler) :
    (calls moved t v hs).length = (hs.filter fun h => h.ty = t).length ∧ ∀ c ∈ calls moved t v hs, c.1 = t := by
  induction hs generalizing v with
  | nil => simp [calls]
  | cons h hs ih =>
    by_cases e : h.ty = t
    · have := ih (if h.takes then moved v else v)
      simp only [calls, if_pos e, List.length_cons, List.mem_cons]
      refine ⟨by rw [this.1]; simp [e], ?_⟩
      rintro c (rfl | hc)
      · rfl
      · exact this.2 c hc
    · have := ih v
      simp only [calls, if_neg e]
      exact ⟨by rw [this.1]; simp [e], this.2⟩

/-- Careful operations store what was assigned last.  Partial: see `C34_assign_error_lost`,
`C34_copy_moves_source`, `C34_assign_empty_ignored`. -/
theorem C34_stores_last_partial {s : St V} (hr : Run moved s) {o : Life.ExpectedVar.Op V}
    (hc : Life.ExpectedVar.careful s o) :
    ∃ s', Life.ExpectedVar.step moved s o = .ok s' ∧
      contents pack s' = Life.ExpectedVar.spec moved (contents pack s) o := by
  obtain ⟨s', h1, _, h2⟩ := Life.ExpectedVar.step_ok (moved := moved) (run_inv hr) hc.1
  exact ⟨s', h1, h2 hc⟩

/-- Lifetimes are always in order. -/
theorem C34_lifetimes {s : St V} (hr : Run moved s) :
    Proper s.log ∧ (∀ o, Life.ExpectedVar.declared s o → ∃ s', Life.ExpectedVar.step moved s o = .ok s') ∧
      ((∀ i, s.vars i = none) → ReleasedOnce s.log) := by
  have hi := run_inv hr
  refine ⟨hi.ledger.proper, fun o ho => ?_, fun hg => hi.ledger.releasedOnce fun i => by simp [Life.Variant.owner, hg i]⟩
  obtain ⟨s', h, _⟩ := Life.ExpectedVar.step_ok (moved := moved) hi ho
  exact ⟨s', h⟩

/-- Assigning an error from a named object (or any const reference) loses it: afterwards nothing is stored and
neither handler is ever called. -/
theorem C34_assign_error_lost {s : St V} (hr : Run moved s) {i : Nat} (v : V) (hi : s.vars i ≠ none) :
    ∃ s', Life.ExpectedVar.step moved s (.setErrorConst i v) = .ok s' ∧ contents pack s' i = some none ∧
      ∀ hs, ∃ s'', chain moved s' i hs = .ok (s'', []) := by
  obtain ⟨s', h1, h2, h3⟩ := Life.Variant.step_ok (moved := moved) nodup_pack (run_inv hr)
    (o := .set i 2 v) ⟨hi, trivial⟩
  have hc : contents pack s' i = some none := by
    rw [h3 ⟨⟨hi, trivial⟩, trivial⟩]
    simp [Life.Variant.spec, pack]
  refine ⟨s', h1, hc, fun hs => ?_⟩
  exact (C34_exactly_matching_handlers (.step hr (o := .setErrorConst i v) hi h1) hc hs).1

/-- Copy construction moves the value out of its source, even a const one. -/
theorem C34_copy_moves_source {s : St V} (hr : Run moved s) {i j t : Nat} {v : V} (hi : s.vars i = none)
    (hj : contents pack s j = some (some (t, v))) :
    ∃ s', Life.ExpectedVar.step moved s (.copy i j) = .ok s' ∧ contents pack s' i = some (some (t, v)) ∧
      contents pack s' j = some (some (t, moved v)) := by
  have hinv := run_inv hr
  cases hy : s.vars j with
  | none => simp [contents, hy] at hj
  | some y =>
    have h0 : 0 ≤ y.index := by
      apply Classical.byContradiction
      intro h
      simp [contents, hy, holds, h] at hj
    have hij : i ≠ j := by intro e; subst e; rw [hi] at hy; cases hy
    obtain ⟨s1, h1, h2, h3⟩ := construct_ok (moved := moved) hinv hi hy true
    refine ⟨s1, ?_, ?_, ?_⟩
    · simp only [Life.ExpectedVar.step, toVariant, Life.Variant.step, hi, hy, if_pos h0]; exact h1
    · rw [h3, upd_ne _ _ hij, upd_self, hj]
    · rw [h3, upd_self, hj]; simp

/-- Assigning an `Expected` that holds nothing leaves the old value (and its handler) in place. -/
theorem C34_assign_empty_ignored {s : St V} {i j : Nat} {x y : Var V} (hx : s.vars i = some x)
    (hy : s.vars j = some y) (hu : y.index < 0) :
    Life.ExpectedVar.step moved s (.assign i j) = .ok s :=
  (C31_assign_unset_ignored hx hy hu).1

/-- After `done()` nothing is stored: later handlers are not called. -/
theorem C34_done_clears {s : St V} (hr : Run moved s) {i : Nat} (hi : s.vars i ≠ none) :
    ∃ s', Life.ExpectedVar.step moved s (.done i) = .ok s' ∧ ∀ hs, ∃ s'', chain moved s' i hs = .ok (s'', []) := by
  obtain ⟨s', h1, h2⟩ := C34_stores_last_partial hr (o := .done i) ⟨hi, trivial⟩
  refine ⟨s', h1, fun hs => ?_⟩
  have hc : contents pack s' i = some none := by rw [h2]; simp [Life.ExpectedVar.spec]
  exact (C34_exactly_matching_handlers (.step hr (o := .done i) hi h1) hc hs).1

example : ∃ s : St Nat, Run (fun _ => 0) s ∧ contents pack s 0 = some (some (1, 55)) ∧ s.vars 3 = none := by
  refine ⟨build { vars := upd (fun _ => none) 0 (some fresh), next := 0, log := [] } 0 1 55 1,
    .step .start (o := .fromError 0 55) (by decide) ?_, by decide, by decide⟩
  rfl

/-! The theorems at a state with an error in variable 0. -/

/-- Variable 0 holds the error 55. -/
def Life.ExpectedVar.exState : St Nat := build { vars := upd (fun _ => none) 0 (some fresh), next := 0, log := [] } 0 1 55 1

theorem Life.ExpectedVar.exState_run : Run (fun _ => 0) exState := .step .start (o := .fromError 0 55) (by decide) rfl

example := C34_calls_kind (moved := fun _ => 0) 0 55 [⟨0, true⟩, ⟨1, true⟩, ⟨0, false⟩]
example := C34_stores_last_partial exState_run (o := .setResult 0 7) (by decide)
example := C34_lifetimes exState_run
example := C34_assign_error_lost exState_run (i := 0) 9 (by decide)
example := C34_copy_moves_source exState_run (i := 3) (j := 0) (t := 1) (v := 55) rfl (by decide)
example := C34_assign_empty_ignored (moved := fun _ => 0) (s := { exState with vars := upd exState.vars 2 (some fresh) }) (i := 0) (j := 2) rfl rfl (by decide)

end Flame
