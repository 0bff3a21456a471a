import Verif.Crypto.LibraryProps

/-!
# C82, exactly: when the module is called while it is not initialised, and when it stays initialised
-/

namespace Flame
open Pkcs11
variable {I F : Type}

namespace Pkcs11Spec

/-- The last call that changed the module: `C_Initialize` or `C_Finalize`, successful (the log has the newest event first). -/
def lastChange : List Ev → Option Ev
  | [] => none
  | .initialized :: _ => some .initialized
  | .finalized true :: _ => some (.finalized true)
  | _ :: log => lastChange log

/-- The calls that use the module. -/
def uses : Op I F → Bool
  | .finalize _ => true
  | .getSlots => true
  | .drop _ => true
  | _ => false

/-- The call is an initialisation that answers OK. -/
def saysOk (can : Nat → Bool) (s : Pkcs11.St I F) : Op I F → Bool
  | .start a => match s.lib with
    | some l => match initAll can a s l with
      | .ok (rv, _) => rv = OK
      | _ => false
    | none => false
  | _ => false

/-- Any history of calls: `told`: some initialisation answered OK; `wrong`: after that a call used the module although its last change was a
`C_Finalize`. -/
inductive Hist (can : Nat → Bool) : Pkcs11.St I F → Bool → Bool → Prop
  | start : Hist can Pkcs11.init false false
  | step {s s' : Pkcs11.St I F} {told wrong : Bool} {o : Op I F} : Hist can s told wrong → Pkcs11.step can s o = .ok s' →
      Hist can s' (told || saysOk can s o) (wrong || (told && uses o && decide (lastChange s.log = some (.finalized true))))

end Pkcs11Spec

namespace Pkcs11
open Pkcs11Spec

/-- What a history knows: the object and the module. -/
structure Known (s : St I F) (told wrong : Bool) : Prop where
  status : ∀ l, s.lib = some l → (l.status = OK ↔ told = true)
  on : s.modInit = true ↔ lastChange s.log = some .initialized
  off : s.modInit = false → told = true → lastChange s.log = some (.finalized true)
  never : told = false → lastChange s.log ≠ some (.finalized true)
  clean : Clean s.log ↔ wrong = false

theorem initializeFunctionList_status (a : Answers I F) (l : Lib I F) : (initializeFunctionList a l).2.status = l.status := by
  simp only [initializeFunctionList]
  split
  · rfl
  · split <;> rfl

/-- What an initialisation does. -/
inductive Started (a : Answers I F) (s : St I F) (l : Lib I F) : Rv → St I F → Prop
  /-- it fails, or answers the old status, before `C_Initialize` succeeds -/
  | early {rv : Rv} {l' : Lib I F} : l'.status = l.status → rv ≠ OK → Started a s l rv { s with lib := some l' }
  /-- `C_Initialize` succeeds and `C_GetInfo` fails -/
  | half {rv : Rv} {l' : Lib I F} : s.modInit = false → l'.status = l.status → rv ≠ OK →
      Started a s l rv { s with lib := some l', modInit := true, log := .initialized :: s.log }
  | done {l' : Lib I F} : s.modInit = false → l'.status = OK →
      Started a s l OK { s with lib := some l', modInit := true, log := .initialized :: s.log }

theorem initAll_started {can : Nat → Bool} {a : Answers I F} {s s' : St I F} {l : Lib I F} {rv : Rv} (h : initAll can a s l = .ok (rv, s')) :
    Started a s l rv s' := by
  have hfs := initializeFunctionList_status a l
  simp only [initAll] at h
  split at h
  · rename_i hne
    cases h
    exact .early hfs hne
  · split at h
    · rename_i rv1 l1 hil
      have hst : l1.status = l.status := by rw [ifaces_status hil, hfs]
      split at h
      · rename_i hne
        cases h
        exact .early hst hne.1
      · split at h
        · injection h with h
          by_cases hm : s.modInit = true
          · have : initializeRest a s l1 = (ALREADY_INITIALIZED, { s with lib := some l1 }) := by
              simp [initializeRest, cInitialize, hm, ALREADY_INITIALIZED, OK]
            rw [this] at h
            cases h
            exact .early hst (by decide)
          · have hm : s.modInit = false := by simpa using hm
            by_cases hi : a.initRv = OK
            · by_cases hf : a.info = OK
              · have : initializeRest a s l1 = (OK, { s with lib := some { l1 with status := OK, info := some a.infoValue }, modInit := true, log := .initialized :: s.log }) := by
                  simp [initializeRest, cInitialize, hm, hi, hf]
                rw [this] at h
                cases h
                exact .done hm rfl
              · have : initializeRest a s l1 = (a.info, { s with lib := some l1, modInit := true, log := .initialized :: s.log }) := by
                  simp [initializeRest, cInitialize, hm, hi, hf]
                rw [this] at h
                cases h
                exact .half hm hst hf
            · have : initializeRest a s l1 = (a.initRv, { s with lib := some l1 }) := by
                simp [initializeRest, cInitialize, hm, hi]
              rw [this] at h
              cases h
              exact .early hst hi
        · cases h
    · cases h
    · cases h

/-- `finalize`, in the three situations. -/
theorem finalize_cases {s : St I F} {l : Lib I F} {told wrong : Bool} (h : Known s told wrong) (hl : s.lib = some l) (rv : Rv) (x : Option (Lib I F))
    (hx : ∀ l', x = some l' → l'.status = l.status) :
    Known { (finalize rv s l).2 with lib := x } told (wrong || (told && decide (lastChange s.log = some (.finalized true)))) := by
  have hst := h.status l hl
  have hxs : ∀ l', x = some l' → (l'.status = OK ↔ told = true) := fun l' e => by rw [hx l' e]; exact hst
  cases told with
  | false =>
    have hs : l.status ≠ OK := fun e => by simpa using hst.mp e
    have : (finalize rv s l).2 = s := by simp [finalize, getFunctionList, createExpected, hs, Exp.visit, Exp.assignError]
    rw [this]
    exact ⟨hxs, h.on, h.off, h.never, by simpa using h.clean⟩
  | true =>
    have hs : l.status = OK := hst.mpr rfl
    cases hm : s.modInit with
    | false =>
      have hlast := h.off hm rfl
      have : (finalize rv s l).2 = { s with log := .finalizedUninitialized :: s.log } := by
        simp [finalize, getFunctionList, createExpected, hs, Exp.visit, cFinalize, hm]
      rw [this]
      refine ⟨hxs, ?_, fun _ _ => ?_, by simp, ?_⟩
      · simpa [lastChange] using h.on
      · simpa [lastChange] using hlast
      · simp [Clean, hlast]
    | true =>
      have hlast := h.on.mp hm
      by_cases hrv : rv = OK
      · have : (finalize rv s l).2 = { s with modInit := false, log := .finalized true :: s.log } := by
          simp [finalize, getFunctionList, createExpected, hs, Exp.visit, cFinalize, hm, hrv]
        rw [this]
        refine ⟨hxs, by simp [lastChange], fun _ _ => by simp [lastChange], by simp, ?_⟩
        have := h.clean
        simp only [Clean] at this
        simp [Clean, hlast, this]
      · have : (finalize rv s l).2 = { s with log := .finalized false :: s.log } := by
          simp [finalize, getFunctionList, createExpected, hs, Exp.visit, cFinalize, hm, hrv]
        rw [this]
        refine ⟨hxs, ?_, ?_, by simp, ?_⟩
        · simpa [lastChange] using h.on
        · simp [hm]
        · have := h.clean
          simp only [Clean] at this
          simp [Clean, hlast, this]

theorem Known.start : Known (Pkcs11.init : St I F) false false := by
  refine ⟨?_, by simp [Pkcs11.init, lastChange], by simp, by simp [Pkcs11.init, lastChange], by simp [Clean, Pkcs11.init]⟩
  intro l hl
  simp only [Pkcs11.init, Option.some.injEq] at hl
  subst hl
  simp [OK, NOT_INITIALIZED]

theorem Known.step {can : Nat → Bool} {s s' : St I F} {told wrong : Bool} (h : Known s told wrong) {o : Op I F} (he : Pkcs11.step can s o = .ok s') :
    Known s' (told || saysOk can s o) (wrong || (told && uses o && decide (lastChange s.log = some (.finalized true)))) := by
  cases hl : s.lib with
  | none => cases o <;> simp [Pkcs11.step, hl] at he
  | some l =>
    have hst := h.status l hl
    cases o with
    | start a =>
      simp only [Pkcs11.step, hl] at he
      simp only [uses, Bool.and_false, Bool.false_and, Bool.or_false, saysOk, hl]
      cases hia : initAll can a s l with
      | ub => rw [hia] at he; cases he
      | loop => rw [hia] at he; cases he
      | ok p =>
        obtain ⟨rv, t⟩ := p
        rw [hia] at he
        simp only [Res.ok.injEq] at he
        subst he
        have hc := h.clean
        simp only [Clean] at hc
        cases initAll_started hia with
        | early e1 e2 =>
          simp only [e2, decide_false, Bool.or_false]
          refine ⟨?_, h.on, h.off, h.never, h.clean⟩
          intro l' e
          simp only [Option.some.injEq] at e
          subst e
          rw [e1]; exact hst
        | half e0 e1 e2 =>
          simp only [e2, decide_false, Bool.or_false]
          refine ⟨?_, by simp [lastChange], by simp, by simp [lastChange], by simpa [Clean] using hc⟩
          intro l' e
          simp only [Option.some.injEq] at e
          subst e
          rw [e1]; exact hst
        | done e0 e1 =>
          simp only [decide_true, Bool.or_true]
          refine ⟨?_, by simp [lastChange], by simp, by simp, by simpa [Clean] using hc⟩
          intro l' e
          simp only [Option.some.injEq] at e
          subst e
          simp [e1]
    | finalize rv =>
      simp only [Pkcs11.step, hl, Res.ok.injEq] at he
      have hlib : (Pkcs11.finalize rv s l).2.lib = some l := by
        simp only [Pkcs11.finalize, getFunctionList, createExpected, Exp.assignError]
        split
        · simp only [Exp.visit, cFinalize]
          split
          · split <;> exact hl
          · exact hl
        · exact hl
      have := finalize_cases h hl rv (some l) (by intro l' e; cases e; rfl)
      rw [← hlib] at this
      rw [← he]
      simpa [saysOk, uses] using this
    | getSlots =>
      simp only [Pkcs11.step, hl] at he
      simp only [saysOk, uses, Bool.or_false, Bool.and_true]
      cases told with
      | false =>
        have hs : l.status ≠ OK := fun e => by simpa using hst.mp e
        simp only [getFunctionList, createExpected, hs, if_false, Exp.assignError, Res.ok.injEq] at he
        subst he
        simpa using h
      | true =>
        have hs : l.status = OK := hst.mpr rfl
        simp only [getFunctionList, createExpected, hs, if_true, Res.ok.injEq] at he
        subst he
        cases hm : s.modInit with
        | true =>
          have := h.on.mp hm
          simpa [this] using h
        | false =>
          have hlast := h.off hm rfl
          simp only [Bool.false_eq_true, if_false]
          refine ⟨fun l' e => h.status l' (hl.trans e), ?_, fun _ _ => ?_, by simp, ?_⟩
          · simp [lastChange, hlast]
          · simpa [lastChange] using hlast
          · simp [Clean, hlast]
    | getInterfaceList =>
      simp only [Pkcs11.step, hl, Res.ok.injEq] at he
      subst he
      have : (Pkcs11.getInterfaceList l).2.status = l.status := by
        simp only [Pkcs11.getInterfaceList]; split <;> rfl
      simp only [saysOk, uses, Bool.or_false, Bool.and_false, Bool.false_and]
      refine ⟨?_, h.on, h.off, h.never, h.clean⟩
      intro l' e
      simp only [Option.some.injEq] at e
      subst e
      rw [this]; exact hst
    | drop rv =>
      simp only [Pkcs11.step, hl, Res.ok.injEq] at he
      have := finalize_cases h hl rv none (by simp)
      rw [← he]
      simpa [saysOk, uses] using this

end Pkcs11

/-- **C82, exactly.**  For every history of calls on a library object, whatever the module answers: the module was called while it was not initialised
exactly if, after an initialisation had answered OK, a call used it when its last change was a `C_Finalize` (which then was one by hand).  And destroying
the object leaves the module initialised exactly if it was initialised and either no initialisation had answered OK or `C_Finalize` refuses. -/
theorem C82_history_exact {can : Nat → Bool} {s : Pkcs11.St I F} {told wrong : Bool} (h : Pkcs11Spec.Hist can s told wrong) :
    (Pkcs11Spec.Clean s.log ↔ wrong = false) ∧
    (s.lib ≠ none → ∀ rv, ∃ s', Pkcs11.step can s (.drop rv) = .ok s' ∧ s'.lib = none ∧
      (s'.modInit = true ↔ Pkcs11Spec.lastChange s.log = some .initialized ∧ (told = false ∨ rv ≠ OK))) := by
  have k : Pkcs11.Known s told wrong := by
    induction h with
    | start => exact .start
    | step _ he ih => exact ih.step he
  refine ⟨k.clean, fun hne rv => ?_⟩
  obtain ⟨l, hl⟩ := Option.ne_none_iff_exists'.mp hne
  refine ⟨{ (finalize rv s l).2 with lib := none }, by simp only [Pkcs11.step, hl], rfl, ?_⟩
  rw [← k.on]
  have hst := k.status l hl
  by_cases hs : l.status = OK
  · have ht := hst.mp hs
    subst ht
    by_cases hm : s.modInit = true
    · by_cases hrv : rv = OK
      · simp [finalize, getFunctionList, createExpected, hs, Exp.visit, cFinalize, hm, hrv]
      · simp [finalize, getFunctionList, createExpected, hs, Exp.visit, cFinalize, hm, hrv]
    · simp [finalize, getFunctionList, createExpected, hs, Exp.visit, cFinalize, hm]
  · have ht : told = false := by
      cases told with
      | false => rfl
      | true => exact absurd (hst.mpr rfl) hs
    subst ht
    simp [finalize, getFunctionList, createExpected, hs, Exp.visit, Exp.assignError]

theorem Pkcs11Spec.Hist.run {can : Nat → Bool} : ∀ (os : List (Op I F)) {s s' : Pkcs11.St I F} {told wrong : Bool}, Pkcs11Spec.Hist can s told wrong →
    runOps (Pkcs11.step can) s os = .ok s' → ∃ t w, Pkcs11Spec.Hist can s' t w := by
  intro os
  induction os with
  | nil => intro s s' t w h e; simp [runOps] at e; subst e; exact ⟨t, w, h⟩
  | cons o os ih =>
    intro s s' t w h e
    simp only [runOps] at e
    cases ho : Pkcs11.step can s o with
    | ok s1 => rw [ho] at e; exact ih (h.step ho) e
    | ub => rw [ho] at e; cases e
    | loop => rw [ho] at e; cases e

/-- Initialised, finalised by hand, initialised again (refused by nobody), destroyed: the module is called correctly; without the second initialisation it
is not. -/
example : (∃ s : Pkcs11.St Nat Nat, Pkcs11Spec.Hist (fun _ => true) s true true ∧ s.lib = none) ∧
    (∃ s : Pkcs11.St Nat Nat, Pkcs11Spec.Hist (fun _ => true) s true false ∧ s.lib = none ∧ s.modInit = false) := by
  let a : Answers Nat Nat := ⟨some OK, none, OK, OK, 7⟩
  refine ⟨⟨_, .step (o := .drop OK) (.step (o := .finalize OK) (.step (o := .start a) .start rfl) rfl) rfl, rfl⟩,
    ⟨_, .step (o := .drop OK) (.step (o := .start a) (.step (o := .finalize OK) (.step (o := .start a) .start rfl) rfl) rfl) rfl, rfl, rfl⟩⟩

namespace Flame
open Pkcs11
example := C82_history_exact (.step (o := .finalize OK) (.step (o := .start ⟨some OK, none, OK, OK, 7⟩) .start rfl) rfl :
  Pkcs11Spec.Hist (I := Nat) (F := Nat) (fun _ => true) _ _ _)
end Flame

end Flame
