import Verif.Life.Reentrant

/-! # C146: a handler may give its object a new value -/

namespace Flame
open Own Life Life.Reentrant

section Common
open Life.ExpectedCom

variable {V : Type} {moved : V → V}

/-- The handler runs in a state like any other. -/
theorem Life.Reentrant.enter {s : St V} (h : ExpectedCom.Inv s) {i : Nat} {k : Bool} {v : V}
    (hi : contents s i = some (some (k, v))) :
    ∃ c : Cell V, c.err = k ∧ c.val = v ∧ ExpectedCom.read s i = .ok (some c) ∧ owner s i = some c.obj ∧ Live c.obj s.log ∧
      ExpectedCom.Inv { s with log := .used c.obj :: s.log } := by
  have hne : s.vars i ≠ none := by intro e; simp [contents, e] at hi
  rcases cases_var h hne with ⟨m, hv, _⟩ | ⟨c, hv, hr, ho, hl⟩
  · simp [contents, hv, holds] at hi
  · simp only [contents, hv, Option.map_some, holds, Option.some.injEq, Prod.mk.injEq] at hi
    exact ⟨c, hi.1, hi.2, hr, ho, hl, (ExpectedCom.use_next h ho).1.inv⟩

/-- The state the handler of `i` starts in. -/
def Life.Reentrant.entered (s : St V) (i : Nat) : St V := match ExpectedCom.read s i with
  | .ok (some c) => { s with log := .used c.obj :: s.log }
  | _ => s

/-- **C146, `flame_ide::Expected`.** Whatever a matching handler does (ending in any state `s₁` in which the object still exists), afterwards its object is empty and all
other objects are as the handler left them; the handler of the other kind is not called. -/
theorem C146_common_exact {s : St V} (hr : Reach (step moved) safe init s) {i : Nat} {k : Bool} {v : V}
    (hi : contents s i = some (some (k, v))) {body : St V → Res (St V)} {s₁ : St V}
    (hb : body (entered s i) = .ok s₁) (hd : s₁.vars i ≠ none) :
    (∃ s', common s i k body false = .ok (s', true) ∧ contents s' = upd (contents s₁) i (some none) ∧ s'.log = s₁.log) ∧
      ∀ again, common s i (!k) body again = .ok (s, false) := by
  obtain ⟨c, hk, _, hrd, _, _, _⟩ := enter (ExpectedCom.reach_inv hr) hi
  have he : entered s i = { s with log := .used c.obj :: s.log } := by simp [entered, hrd]
  rw [he] at hb
  cases hx : s₁.vars i with
  | none => exact absurd hx hd
  | some x =>
    refine ⟨⟨{ s₁ with vars := upd s₁.vars i (some { x with state := none }) }, ?_, ?_, rfl⟩, fun again => ?_⟩
    rotate_left 2
    · simp [common, hrd, hk]
    · simp [common, hrd, hk, hb, hx]
    · funext q
      by_cases hq : q = i
      · subst hq; simp [contents, holds]
      · simp [contents, upd_ne _ _ hq]

/-- **C146 is false for `flame_ide::Expected`**: a value the handler gave its object is lost and never destroyed, whatever safe operations follow. -/
theorem C146_common_lost {s : St V} (hr : Reach (step moved) safe init s) {i : Nat} {k : Bool} {v : V}
    (hi : contents s i = some (some (k, v))) {body : St V → Res (St V)} {s₁ : St V}
    (hb : body (entered s i) = .ok s₁) (hreach : Reach (step moved) safe (entered s i) s₁) {k' : Bool} {v' : V}
    (hn : contents s₁ i = some (some (k', v'))) :
    ∃ s' r, common s i k body false = .ok (s', true) ∧ contents s' i = some none ∧ owner s₁ i = some r ∧
      ∀ t, Reach (step moved) safe s' t → .made r ∈ t.log ∧ t.log.count (.closed r) = 0 := by
  obtain ⟨c, hk, _, hrd, _, _, hin⟩ := enter (ExpectedCom.reach_inv hr) hi
  have he : entered s i = { s with log := .used c.obj :: s.log } := by simp [entered, hrd]
  rw [← he] at hin
  have h₁ : ExpectedCom.Inv s₁ := by
    refine Reach.inv hin ?_ hreach
    intro a o b h hp hs
    obtain ⟨t, ht, hnx, _⟩ := ExpectedCom.step_ok (moved := moved) h hp
    rw [ht] at hs
    injection hs with hs
    subst hs
    exact hnx.inv
  have hne : s₁.vars i ≠ none := by intro e; simp [contents, e] at hn
  rcases cases_var h₁ hne with ⟨m, hv, _⟩ | ⟨d, hv, _, ho, hl⟩
  · simp [contents, hv, holds] at hn
  · obtain ⟨hnx, _, _, horph⟩ := release_ok (moved := moved) h₁ hv false
    have hrel : release moved s₁ i false = { s₁ with vars := upd s₁.vars i (some ⟨none, some d⟩) } := by
      simp [release, hv]
    rw [hrel] at hnx horph
    rw [he] at hb
    refine ⟨{ s₁ with vars := upd s₁.vars i (some ⟨none, some d⟩) }, d.obj, ?_, ?_, ho, fun t ht => ?_⟩
    · simp [common, hrd, hk, hb, hv]
    · simp [contents, holds]
    · exact Life.ExpectedCom.orphan_forever hnx.inv ht horph

/-- After giving its object a new value the handler must not look at its argument: the value it refers to was destroyed. -/
theorem C146_common_argument {s : St V} (hr : Reach (step moved) safe init s) {i : Nat} {k k' : Bool} {v v' : V}
    (hi : contents s i = some (some (k, v))) :
    (∃ s', common s i k (fun s => step moved s (.set i k' v')) false = .ok (s', true)) ∧
      common s i k (fun s => step moved s (.set i k' v')) true = .ub := by
  obtain ⟨c, hk, _, hrd, ho, hl, hin⟩ := enter (ExpectedCom.reach_inv hr) hi
  have hne : s.vars i ≠ none := by intro e; simp [contents, e] at hi
  rcases cases_var (ExpectedCom.reach_inv hr) hne with ⟨m, hv, _⟩ | ⟨d, hv, hrd', _, _⟩
  · simp [contents, hv, holds] at hi
  · rw [hrd'] at hrd
    injection hrd with hrd
    injection hrd with hrd
    subst hrd
    have hl' : Live d.obj (.used d.obj :: s.log) := ⟨List.mem_cons_of_mem _ hl.1, by simpa using hl.2⟩
    constructor
    · refine ⟨{ vars := upd (upd s.vars i (some ⟨some k', some ⟨s.next, k', v'⟩⟩)) i (some ⟨none, some ⟨s.next, k', v'⟩⟩), next := s.next + 1, log := .made s.next :: .closed d.obj :: .used d.obj :: s.log }, ?_⟩
      simp [common, hrd', hk, step, assignValue, hv, destroy, hl', place]
    · have hdead : ¬ Live d.obj (.made s.next :: .closed d.obj :: .used d.obj :: s.log) := by simp [Live]
      simp [common, hrd', hk, step, assignValue, hv, destroy, hl', place, hdead]

/-- A handler that ends the life of its object makes the call undefined. -/
theorem C146_common_drop_ub {s : St V} (hr : Reach (step moved) safe init s) {i : Nat} {k : Bool} {v : V}
    (hi : contents s i = some (some (k, v))) {body : St V → Res (St V)} {s₁ : St V}
    (hb : body (entered s i) = .ok s₁) (hd : s₁.vars i = none) (again : Bool) : common s i k body again = .ub := by
  obtain ⟨c, hk, _, hrd, _⟩ := enter (ExpectedCom.reach_inv hr) hi
  have he : entered s i = { s with log := .used c.obj :: s.log } := by simp [entered, hrd]
  rw [he] at hb
  simp [common, hrd, hk, hb, hd]

/-- **C146.** An empty object calls no handler, whatever the handler would do, and nothing changes. -/
theorem C146_common_empty {s : St V} (hr : Reach (step moved) safe init s) {i : Nat} (hi : contents s i = some none) (k : Bool)
    (body : St V → Res (St V)) (again : Bool) : common s i k body again = .ok (s, false) := by
  have hne : s.vars i ≠ none := by intro e; simp [contents, e] at hi
  rcases cases_var (ExpectedCom.reach_inv hr) hne with ⟨m, _, hrd, _⟩ | ⟨c, hv, _⟩
  · simp [common, hrd]
  · simp [contents, hv, holds] at hi

end Common

section Templates
open Life.Variant Life.ExpectedVar

variable {V : Type} {moved : V → V}

/-- **C146, `templates::Expected`.** What a matching handler does to the program's objects, its own included, stays as it is: nothing is changed after it returns. -/
theorem C146_templates_kept {s : Variant.St V} (hr : Run moved s) {i t : Nat} {v : V}
    (hi : contents pack s i = some (some (t, v))) :
    ∃ r, Variant.owner s i = some r ∧ Live r s.log ∧ ∀ (body : Variant.St V → Res (Variant.St V)),
      (∀ s₁, body { s with log := .used r :: s.log } = .ok s₁ → templates s i t body false = .ok (s₁, true)) ∧
      (body { s with log := .used r :: s.log } = .ub → templates s i t body false = .ub) := by
  have hinv := run_inv hr
  cases hx : s.vars i with
  | none => simp [contents, hx] at hi
  | some x =>
    have hh : holds pack x = some (t, v) := by simpa [contents, hx] using hi
    obtain ⟨s', hs', _⟩ := handle_ok (moved := moved) hinv hx ⟨t, false⟩
    rw [hh] at hs'
    simp only [if_true] at hs'
    simp only [handle, hx] at hs'
    cases hg : getType pack x t with
    | none => simp [hg] at hs'
    | some k =>
      simp only [hg] at hs'
      cases hm : readMember s i k with
      | ub => simp [hm] at hs'
      | loop => simp [hm] at hs'
      | ok c =>
        obtain ⟨d, hd, hdt, h0, _⟩ := getType_member (hinv.wf i x hx) hg
        have hcd : c = d := by
          obtain ⟨n, m⟩ := x
          simp only at hd
          subst hd
          simp only [readMember, hx] at hm
          split at hm
          · injection hm with hm; exact hm.symm
          · cases hm
        subst hcd
        have ho : Variant.owner s i = some c.obj := by simp [Variant.owner, hx, h0, hd]
        have hl := hinv.ledger.ownedLive i _ ho
        refine ⟨c.obj, ho, hl, fun body => ⟨fun s₁ h => ?_, fun h => ?_⟩⟩
        · simp [templates, hx, hg, hm, h]
        · simp [templates, hx, hg, hm, h]

/-- The state the handler of `i` starts in is like any other. -/
theorem Life.Reentrant.entered_inv {s : Variant.St V} (h : Variant.Inv pack s) {r i : Nat} (ho : Variant.owner s i = some r) :
    Variant.Inv pack { s with log := .used r :: s.log } := by
  unfold Variant.owner at ho
  split at ho
  · rename_i x hx
    split at ho
    · rename_i h0
      cases hm : x.mem with
      | none => simp [hm] at ho
      | some c =>
        simp only [hm, Option.map_some, Option.some.injEq] at ho
        subst ho
        exact use_inv h hx h0 hm
    · cases ho
  · cases ho

/-- **C146, `templates::Expected`.** A handler that assigns to its object succeeds: the object holds the new value afterwards, the old one was destroyed, the others
are unchanged, and the bookkeeping of all objects is in order (nothing leaks).  `ty` is 0 for a result, 1 for an error. -/
theorem C146_templates_new_value {s : Variant.St V} (hr : Run moved s) {i t : Nat} {v : V}
    (hi : contents pack s i = some (some (t, v))) (err : Bool) (w : V) :
    ∃ s', templates s i t (fun s => ExpectedVar.step moved s (if err then .setErrorMove i w else .setResult i w)) false = .ok (s', true) ∧
      contents pack s' = upd (contents pack s) i (some (some (if err then 1 else 0, w))) ∧ Ledger (Variant.owner s') s'.log := by
  obtain ⟨r, ho, _, hk⟩ := C146_templates_kept hr hi
  have hin := entered_inv (run_inv hr) ho
  have hne : s.vars i ≠ none := by intro e; simp [contents, e] at hi
  cases err with
  | false =>
    obtain ⟨s', h1, h2, h3⟩ := ExpectedVar.step_ok (moved := moved) hin (o := .setResult i w) hne
    refine ⟨s', ((hk _).1 s' h1), ?_, h2.ledger⟩
    rw [h3 ⟨hne, trivial⟩]
    rfl
  | true =>
    obtain ⟨s', h1, h2, h3⟩ := ExpectedVar.step_ok (moved := moved) hin (o := .setErrorMove i w) hne
    refine ⟨s', ((hk _).1 s' h1), ?_, h2.ledger⟩
    rw [h3 ⟨hne, trivial⟩]
    rfl

/-- … so one chain can call handlers of both kinds: if the result handler stores an error, a following error handler is called with it. -/
theorem C146_templates_both_called {s : Variant.St V} (hr : Run moved s) {i : Nat} {v : V}
    (hi : contents pack s i = some (some (0, v))) (w : V) (takes : Bool) :
    ∃ s' s'', templates s i 0 (fun s => ExpectedVar.step moved s (.setErrorMove i w)) false = .ok (s', true) ∧
      ExpectedVar.handle moved s' i ⟨1, takes⟩ = .ok (s'', [(1, w)]) := by
  obtain ⟨r, ho, _, hk⟩ := C146_templates_kept hr hi
  have hin := entered_inv (run_inv hr) ho
  have hne : s.vars i ≠ none := by intro e; simp [contents, e] at hi
  obtain ⟨s', h1, h2, h3⟩ := ExpectedVar.step_ok (moved := moved) hin (o := .setErrorMove i w) hne
  have hc : contents pack s' i = some (some (1, w)) := by
    rw [h3 ⟨hne, trivial⟩]; simp [ExpectedVar.spec]
  cases hx : s'.vars i with
  | none => simp [contents, hx] at hc
  | some x =>
    have hh : holds pack x = some (1, w) := by simpa [contents, hx] using hc
    obtain ⟨s'', g, _⟩ := handle_ok (moved := moved) h2 hx ⟨1, takes⟩
    rw [hh] at g
    exact ⟨s', s'', (hk _).1 s' h1, by simpa using g⟩

/-- Here too the argument of the handler is gone once its object got a new value. -/
theorem C146_templates_argument {s : Variant.St V} (hr : Run moved s) {i t : Nat} {v : V}
    (hi : contents pack s i = some (some (t, v))) (w : V) :
    templates s i t (fun s => ExpectedVar.step moved s (.setResult i w)) true = .ub := by
  have hinv := run_inv hr
  cases hx : s.vars i with
  | none => simp [contents, hx] at hi
  | some x =>
    have hh : holds pack x = some (t, v) := by simpa [contents, hx] using hi
    have h0 : 0 ≤ x.index := by
      apply Classical.byContradiction
      intro h
      simp [holds, h] at hh
    obtain ⟨c, hc, hty, hlt⟩ := hinv.wf i x hx h0
    have ho : Variant.owner s i = some c.obj := by simp [Variant.owner, hx, h0, hc]
    have hl := hinv.ledger.ownedLive i _ ho
    have hl' : Live c.obj (.used c.obj :: s.log) := ⟨List.mem_cons_of_mem _ hl.1, by simpa using hl.2⟩
    obtain ⟨k, hk⟩ : ∃ k : Nat, x.index = k := ⟨x.index.toNat, by omega⟩
    have hlev : level pack x.index = some k := by rw [hk]; exact level_nonneg _ _ (by rw [hk] at hlt; simpa using hlt)
    have htk : c.ty = k := by rw [hty, hk]; simp
    obtain ⟨r, ho', _, hkept⟩ := C146_templates_kept hr hi
    have hrc : r = c.obj := by rw [ho] at ho'; injection ho' with ho'; exact ho'.symm
    subst hrc
    have hbody : ExpectedVar.step moved { s with log := .used c.obj :: s.log } (.setResult i w) =
        .ok (build { s with vars := upd s.vars i (some { x with index := -1 }), log := .closed c.obj :: .used c.obj :: s.log } i 0 w 0) := by
      have hset : setIndex pack 0 = 0 := by decide
      simp [ExpectedVar.step, toVariant, Variant.step, hx, resetVar, h0, hlev, destroyMember, hc, htk, hl', setInto, hset]
    have hdead : ¬ Live c.obj (build { s with vars := upd s.vars i (some { x with index := -1 }), log := .closed c.obj :: .used c.obj :: s.log } i 0 w 0).log := by
      simp [Live, build]
    have hcall := (hkept (fun s => ExpectedVar.step moved s (.setResult i w))).1 _ hbody
    unfold templates at hcall ⊢
    simp only [hx] at hcall ⊢
    cases hg : getType pack x t with
    | none => simp [hg] at hcall
    | some q =>
      simp only [hg] at hcall ⊢
      cases hm : readMember s i q with
      | ub => simp [hm] at hcall
      | loop => simp [hm] at hcall
      | ok d =>
        have hdc : d = c := by
          obtain ⟨n, m⟩ := x
          simp only at hc
          subst hc
          simp only [readMember, hx] at hm
          split at hm
          · injection hm with hm; exact hm.symm
          · cases hm
        subst hdc
        simp [hbody, hdead]

/-- **C146, `templates::Expected`.** A handler of the kind the object does not hold is not called, and nothing changes. -/
theorem C146_templates_other {s : Variant.St V} (hr : Run moved s) {i t : Nat} (ht : t < 2) {x : Option (Nat × V)}
    (hi : contents pack s i = some x) (hx : ∀ v, x ≠ some (t, v)) (body : Variant.St V → Res (Variant.St V)) (again : Bool) :
    templates s i t body again = .ok (s, false) := by
  have hinv := run_inv hr
  cases hv : s.vars i with
  | none => simp [contents, hv] at hi
  | some y =>
    have hh : holds pack y = x := by simpa [contents, hv] using hi
    have hg : getType pack y t = none := by
      cases hg : getType pack y t with
      | none => rfl
      | some k =>
        exfalso
        obtain ⟨d, hd, hdt, h0, _⟩ := getType_member (hinv.wf i y hv) hg
        have hi' : typeIndex pack t = y.index := by
          unfold getType at hg
          split at hg
          · rename_i h; exact h.1
          · cases hg
        have hy : y.index = t := by
          rw [← hi']
          match t, ht with
          | 0, _ => decide
          | 1, _ => decide
        have hp : pack[t]? = some t := by
          match t, ht with
          | 0, _ => decide
          | 1, _ => decide
        refine hx d.val ?_
        rw [← hh]
        simp [holds, hd, hy, hp]
    simp [templates, hv, hg]

end Templates

/-! ### C146: cases -/

/-- A program that retries in the error handler: the new result 9 is lost, its object 1 lives on, the variable is empty. -/
example : ∃ s : ExpectedCom.St Nat, Reach (ExpectedCom.step id) ExpectedCom.safe ExpectedCom.init s ∧
    (match common s 0 true (fun s => ExpectedCom.step id s (.set 0 false 9)) false with
      | .ok (s', b) => (b, ExpectedCom.contents s' 0, s'.log)
      | _ => (false, none, [])) = (true, some none, [.made 1, .closed 0, .used 0, .made 0]) :=
  Reach.witness [.ctor 0 true 5] _ _ (by decide +kernel)

/-- The same with `templates::Expected`: the new result is there. -/
example : ∃ s : Variant.St Nat, ExpectedVar.Run (fun _ => 0) s ∧ Variant.contents ExpectedVar.pack s 0 = some (some (1, 5)) := by
  refine ⟨Variant.build { vars := upd (fun _ => none) 0 (some Variant.fresh), next := 0, log := [] } 0 1 5 1,
    .step .start (o := .fromError 0 5) (by decide) rfl, by decide⟩

/-- An object constructed without a value is empty. -/
example : ∃ s : ExpectedCom.St Nat, Reach (ExpectedCom.step id) ExpectedCom.safe ExpectedCom.init s ∧ ExpectedCom.contents s 0 = some none :=
  Reach.witness [.declare 0] _ _ (by decide +kernel)

/-! The theorems at concrete states. -/

/-- A variable with an error in it, for each of the two kinds of `Expected`. -/
def Life.Reentrant.exCom : ExpectedCom.St Nat := visit (ExpectedCom.step id) ExpectedCom.safe ExpectedCom.init [.ctor 0 true 5, .declare 1]

theorem Life.Reentrant.exCom_reach : Reach (ExpectedCom.step id) ExpectedCom.safe ExpectedCom.init exCom := .visit _ (by decide +kernel)

theorem Life.Reentrant.exVar_run : ExpectedVar.Run (fun _ => 0)
    (Variant.build { vars := upd (fun _ => none) 0 (some Variant.fresh), next := 0, log := [] } 0 1 5 1) :=
  .step .start (o := .fromError 0 5) (by decide) rfl

theorem Life.Reentrant.exVar0_run : ExpectedVar.Run (fun _ => 0)
    (Variant.build { vars := upd (fun _ => none) 0 (some Variant.fresh), next := 0, log := [] } 0 0 5 0) :=
  .step .start (o := .fromResult 0 5) (by decide) rfl

example := C146_common_exact exCom_reach (i := 0) (k := true) (v := 5) (by decide +kernel) (body := fun s => ExpectedCom.step id s (.set 0 false 9)) rfl
  (by decide +kernel)
example := C146_common_lost exCom_reach (i := 0) (k := true) (v := 5) (by decide +kernel) (body := fun s => ExpectedCom.step id s (.set 0 false 9)) rfl
  (.step .start (o := .set 0 false 9) (by decide +kernel) rfl) (k' := false) (v' := 9) (by decide +kernel)
example := C146_common_argument exCom_reach (i := 0) (k := true) (k' := false) (v := 5) (v' := 9) (by decide +kernel)
example := C146_common_drop_ub exCom_reach (i := 0) (k := true) (v := 5) (by decide +kernel) (body := fun s => ExpectedCom.step id s (.drop 0)) rfl
  (by decide +kernel) true
example := C146_common_empty exCom_reach (i := 1) (by decide +kernel) true (fun s => .ok s) false
example := C146_templates_kept exVar_run (i := 0) (t := 1) (v := 5) (by decide)
example := C146_templates_new_value exVar_run (i := 0) (t := 1) (v := 5) (by decide) false 7
example := C146_templates_both_called exVar0_run (i := 0) (v := 5) (by decide) 7 true
example := C146_templates_argument exVar_run (i := 0) (t := 1) (v := 5) (by decide) 7
example := C146_templates_other exVar_run (i := 0) (t := 0) (by decide) (x := some (1, 5)) (by decide) (by simp) (fun s => .ok s) true

end Flame
