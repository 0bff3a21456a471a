import Verif.Crypto.Shared
import Verif.Crypto.LibraryProps

/-!
# C189: several library objects for one module
-/

namespace Flame
open Flame.Pkcs11
open Flame.Own (upd Reach runPre)

variable {I F : Type}

namespace PkShared

/-- **Specification.** Object `i` believes the module is usable through it. -/
def Usable (w : World I F) (i : Nat) : Prop := ∃ l, w.libs i = some l ∧ l.status = OK

/-- **Specification.** The order of calls a module requires (PKCS#11, `C_Initialize` and `C_Finalize`), newest first: `C_Initialize` succeeds only when it is not
initialised, everything else comes while it is.  The result is whether it is initialised in the end, `none` if the order was broken. -/
def seen : List Ev → Option Bool
  | [] => some false
  | .initialized :: g => if seen g = some false then some true else none
  | .finalized ok :: g => if seen g = some true then some (!ok) else none
  | .finalizedUninitialized :: _ => none
  | .calledUninitialized :: _ => none

/-- In such an order initialisations and finalisations come in pairs. -/
theorem seen_pairs (g : List Ev) : ∀ b, seen g = some b → g.count .initialized = g.count (.finalized true) + (if b then 1 else 0) := by
  induction g with
  | nil => intro b h; cases h; rfl
  | cons e g ih =>
    intro b h
    cases e with
    | initialized =>
      simp only [seen] at h
      split at h
      · rename_i hg
        cases h
        have := ih _ hg
        simpa using this
      · cases h
    | finalized ok =>
      simp only [seen] at h
      split at h
      · rename_i hg
        cases h
        have := ih _ hg
        cases ok <;> simp at this ⊢ <;> exact this
      · cases h
    | finalizedUninitialized => cases h
    | calledUninitialized => cases h

/-- Programs that leave finalisation to the destructors. -/
def noFinalize (_ : World I F) : WOp I F → Prop
  | .call _ (.finalize _) => False
  | _ => True

/-- … and whose module never fails: `C_GetInfo` works after `C_Initialize`, `C_Finalize` succeeds. -/
def tidy (_ : World I F) : WOp I F → Prop
  | .call _ (.finalize _) => False
  | .call _ (.start a) => a.initRv = OK → a.info = OK
  | .call _ (.drop rv) => rv = OK
  | _ => True

/-- What `initialize` can do, to the module and to the object. -/
theorem start_effect {can : Nat → Bool} {a : Answers I F} {s s' : St I F} {l : Lib I F} {rv : Rv} (h : initAll can a s l = .ok (rv, s')) :
    ∃ l', s'.lib = some l' ∧
      ((rv ≠ OK ∧ s'.modInit = s.modInit ∧ s'.log = s.log ∧ l'.status = l.status) ∨
       (s.modInit = false ∧ s'.modInit = true ∧ s'.log = .initialized :: s.log ∧ a.initRv = OK ∧
         ((rv = OK ∧ l'.status = OK ∧ a.info = OK) ∨ (rv ≠ OK ∧ l'.status = l.status ∧ a.info ≠ OK)))) := by
  have hfs : (initializeFunctionList a l).2.status = l.status := by
    simp only [initializeFunctionList]
    split
    · rfl
    · split <;> rfl
  simp only [initAll] at h
  split at h
  · rename_i hne
    injection h with h
    injection h with h1 h2
    subst h1; subst h2
    exact ⟨_, rfl, .inl ⟨hne, rfl, rfl, hfs⟩⟩
  · split at h
    · rename_i rv1 l1 hil
      have hst : l1.status = l.status := by rw [ifaces_status hil, hfs]
      split at h
      · rename_i hne
        injection h with h
        injection h with h1 h2
        subst h1; subst h2
        exact ⟨_, rfl, .inl ⟨hne.1, rfl, rfl, hst⟩⟩
      · split at h
        · injection h with h
          cases hm : s.modInit with
          | true =>
            have e : initializeRest a s l1 = (ALREADY_INITIALIZED, { s with lib := some l1 }) := by
              have hn : ALREADY_INITIALIZED ≠ OK := by decide
              simp [initializeRest, cInitialize, hm, hn]
            rw [e] at h
            injection h with h1 h2
            subst h1; subst h2
            exact ⟨l1, rfl, .inl ⟨by decide, by simp [hm], rfl, hst⟩⟩
          | false =>
            by_cases hi : a.initRv = OK
            · by_cases hinf : a.info = OK
              · have e : initializeRest a s l1 = (OK, { s with lib := some { l1 with status := OK, info := some a.infoValue }, modInit := true, log := .initialized :: s.log }) := by
                  simp [initializeRest, cInitialize, hm, hi, hinf]
                rw [e] at h
                injection h with h1 h2
                subst h1; subst h2
                exact ⟨_, rfl, .inr ⟨rfl, rfl, rfl, hi, .inl ⟨rfl, rfl, hinf⟩⟩⟩
              · have e : initializeRest a s l1 = (a.info, { s with lib := some l1, modInit := true, log := .initialized :: s.log }) := by
                  simp [initializeRest, cInitialize, hm, hi, hinf]
                rw [e] at h
                injection h with h1 h2
                subst h1; subst h2
                exact ⟨_, rfl, .inr ⟨rfl, rfl, rfl, hi, .inr ⟨hinf, hst, hinf⟩⟩⟩
            · have e : initializeRest a s l1 = (a.initRv, { s with lib := some l1 }) := by
                simp [initializeRest, cInitialize, hm, hi]
              rw [e] at h
              injection h with h1 h2
              subst h1; subst h2
              exact ⟨_, rfl, .inl ⟨hi, by simp [hm], rfl, hst⟩⟩
        · cases h
    · cases h
    · cases h

/-- Programs without `finalize()`: at most one object is usable, and if one is, the module is initialised. -/
structure Inv (w : World I F) : Prop where
  clean : Pkcs11Spec.Clean w.log
  init : ∀ i, Usable w i → w.modInit = true
  one : ∀ i j, Usable w i → Usable w j → i = j
  live : ∀ i, i ∈ w.live ↔ w.libs i ≠ none

theorem usable_upd {w : World I F} {i k : Nat} {l : Lib I F} {b : Bool} {g : List Ev} :
    Usable { w with libs := upd w.libs i (some l), modInit := b, log := g } k ↔ if k = i then l.status = OK else Usable w k := by
  unfold Usable
  by_cases h : k = i
  · subst h; simp [upd]
  · simp [upd, h]

/-- A member function that keeps the object, the status and what it needs of the module. -/
theorem Inv.keep {w : World I F} {i : Nat} {l l' : Lib I F} {b : Bool} {g : List Ev} (h : Inv w) (hl : w.libs i = some l)
    (hst : l'.status = OK ↔ l.status = OK) (hb : w.modInit = true → b = true) (hg : Pkcs11Spec.Clean g) :
    Inv { w with libs := upd w.libs i (some l'), modInit := b, log := g } := by
  have hu : ∀ k, Usable { w with libs := upd w.libs i (some l'), modInit := b, log := g } k → Usable w k := by
    intro k hk
    rw [usable_upd] at hk
    split at hk
    · rename_i he; subst he; exact ⟨l, hl, hst.mp hk⟩
    · exact hk
  refine ⟨hg, fun k hk => hb (h.init k (hu k hk)), fun j k hj hk => h.one j k (hu j hj) (hu k hk), ?_⟩
  intro k
  rw [show k ∈ ({ w with libs := upd w.libs i (some l'), modInit := b, log := g } : World I F).live ↔ k ∈ w.live from Iff.rfl, h.live k]
  show _ ↔ upd w.libs i (some l') k ≠ none
  by_cases hk : k = i
  · subst hk; simp [upd, hl]
  · simp [upd, hk]

/-- Closing a handle keeps everything if the objects left do not use the module, or if it stays as it is. -/
theorem Inv.close {w : World I F} {i : Nat} {b : Bool} {g : List Ev} (h : Inv w) (hg : Pkcs11Spec.Clean g)
    (hb : ∀ k, k ≠ i → Usable w k → b = true) :
    Inv (World.close { w with libs := upd w.libs i none, modInit := b, log := g } i) := by
  have hu : ∀ k, (∃ l, upd w.libs i none k = some l ∧ l.status = OK) → k ≠ i ∧ Usable w k := by
    rintro k ⟨l, hk, hs⟩
    by_cases he : k = i
    · subst he; simp [upd] at hk
    · simp only [upd, he, if_false] at hk
      exact ⟨he, l, hk, hs⟩
  have hlv : ∀ k, k ∈ w.live.filter (fun j => decide (j ≠ i)) ↔ upd w.libs i none k ≠ none := by
    intro k
    by_cases he : k = i
    · subst he; simp [upd]
    · simp [upd, he, h.live k]
  unfold World.close
  by_cases he : w.live.filter (fun j => decide (j ≠ i)) = []
  · rw [if_pos he]
    rw [he] at hlv
    have hn : ∀ k, upd w.libs i none k = none := by
      intro k
      cases hk : upd w.libs i none k with
      | none => rfl
      | some l => exact absurd ((hlv k).mpr (by simp [hk])) (by simp)
    refine ⟨hg, ?_, ?_, hlv⟩
    · rintro k ⟨l, hk, _⟩
      exact absurd hk (by simp [hn])
    · rintro k _ ⟨l, hk, _⟩ _
      exact absurd hk (by simp [hn])
  · rw [if_neg he]
    exact ⟨hg, fun k hk => hb k (hu k hk).1 (hu k hk).2, fun j k hj hk => h.one j k (hu j hj).2 (hu k hk).2, hlv⟩

theorem finalize_usable {s : St I F} {l : Lib I F} {rv : Rv} (hs : l.status = OK) (hm : s.modInit = true) :
    (finalize rv s l).2 = if rv = OK then { s with modInit := false, log := .finalized true :: s.log } else { s with log := .finalized false :: s.log } := by
  by_cases h : rv = OK <;> simp [finalize, getFunctionList, createExpected, hs, Exp.visit, cFinalize, hm, h]

theorem finalize_not {s : St I F} {l : Lib I F} {rv : Rv} (hs : l.status ≠ OK) : (finalize rv s l).2 = s := by
  simp [finalize, getFunctionList, createExpected, hs, Exp.visit, Exp.assignError]

theorem clean_cons {e : Ev} {g : List Ev} (h : Pkcs11Spec.Clean g) (h1 : e ≠ .finalizedUninitialized) (h2 : e ≠ .calledUninitialized) :
    Pkcs11Spec.Clean (e :: g) := by
  refine ⟨?_, ?_⟩
  · simp [h.1, Ne.symm h1]
  · simp [h.2, Ne.symm h2]

theorem inv_start : Inv (World.start : World I F) := by
  refine ⟨⟨by simp [World.start], by simp [World.start]⟩, ?_, ?_, by simp [World.start]⟩
  · rintro i ⟨l, h, _⟩; simp [World.start] at h
  · rintro i _ ⟨l, h, _⟩; simp [World.start] at h

theorem inv_create {w : World I F} {i : Nat} (h : Inv w) (hi : w.libs i = none) :
    Inv { w with libs := upd w.libs i (Pkcs11.init : St I F).lib, live := i :: w.live } := by
  have hu : ∀ k, (∃ l, upd w.libs i (Pkcs11.init : St I F).lib k = some l ∧ l.status = OK) → Usable w k := by
    rintro k ⟨l, hk, hs⟩
    by_cases he : k = i
    · subst he
      simp only [upd, if_true, Pkcs11.init, Option.some.injEq] at hk
      subst hk
      simp [NOT_INITIALIZED, OK] at hs
    · simp only [upd, he, if_false] at hk
      exact ⟨l, hk, hs⟩
  refine ⟨h.clean, fun k hk => h.init k (hu k hk), fun j k hj hk => h.one j k (hu j hj) (hu k hk), ?_⟩
  intro k
  show k ∈ i :: w.live ↔ upd w.libs i (Pkcs11.init : St I F).lib k ≠ none
  by_cases he : k = i
  · subst he; simp [upd, Pkcs11.init]
  · simp [upd, he, h.live k]

/-- What one call of object `i` is, in terms of the world. -/
inductive Effect (w : World I F) (i : Nat) : Op I F → World I F → Prop where
  /-- `initialize` that does not initialise the module -/
  | refused {a l l'} (hl : w.libs i = some l) (hs : l'.status = l.status) :
      Effect w i (.start a) { w with libs := upd w.libs i (some l') }
  /-- `initialize` that initialises the module; the object is usable if `C_GetInfo` works -/
  | started {a l l'} (hl : w.libs i = some l) (hm : w.modInit = false) (hi : a.initRv = OK)
      (hs : (a.info = OK ∧ l'.status = OK) ∨ (a.info ≠ OK ∧ l'.status = l.status)) :
      Effect w i (.start a) { w with libs := upd w.libs i (some l'), modInit := true, log := .initialized :: w.log }
  | finalize {rv l} (hl : w.libs i = some l) :
      Effect w i (.finalize rv) { w with libs := upd w.libs i (some l), modInit := (Pkcs11.finalize rv (w.view i) l).2.modInit, log := (Pkcs11.finalize rv (w.view i) l).2.log }
  | slots {l} (hl : w.libs i = some l) (hs : l.status = OK → w.modInit = true) :
      Effect w i .getSlots { w with libs := upd w.libs i (some l) }
  | slotsUninitialized {l} (hl : w.libs i = some l) (hs : l.status = OK) (hm : w.modInit = false) :
      Effect w i .getSlots { w with libs := upd w.libs i (some l), log := .calledUninitialized :: w.log }
  | interfaces {l l'} (hl : w.libs i = some l) (hs : l'.status = l.status) :
      Effect w i .getInterfaceList { w with libs := upd w.libs i (some l') }
  | drop {rv l} (hl : w.libs i = some l) :
      Effect w i (.drop rv) (World.close { w with libs := upd w.libs i none, modInit := (Pkcs11.finalize rv (w.view i) l).2.modInit, log := (Pkcs11.finalize rv (w.view i) l).2.log } i)

theorem finalize_lib {s : St I F} {l : Lib I F} {rv : Rv} : (Pkcs11.finalize rv s l).2.lib = s.lib := by
  by_cases hs : l.status = OK
  · by_cases h : rv = OK <;> cases hm : s.modInit <;>
      simp [Pkcs11.finalize, getFunctionList, createExpected, hs, Exp.visit, cFinalize, hm, h]
  · rw [finalize_not hs]

theorem effect {can : Nat → Bool} {w w' : World I F} {i : Nat} {o : Op I F} (he : wstep can w (.call i o) = .ok w') : Effect w i o w' := by
  simp only [wstep] at he
  cases hst : step can (w.view i) o with
  | ub => rw [hst] at he; cases he
  | loop => rw [hst] at he; cases he
  | ok s =>
    rw [hst] at he
    injection he with he
    subst he
    cases hl : w.libs i with
    | none =>
      have hv : (w.view i).lib = none := hl
      cases o <;> simp [step, hv] at hst
    | some l =>
      have hv : (w.view i).lib = some l := hl
      cases o with
      | start a =>
        simp only [step, hv] at hst
        cases hia : initAll can a (w.view i) l with
        | ub => rw [hia] at hst; cases hst
        | loop => rw [hia] at hst; cases hst
        | ok p =>
          obtain ⟨rv, t⟩ := p
          rw [hia] at hst
          injection hst with hst
          subst hst
          obtain ⟨l', h1, h2⟩ := start_effect hia
          obtain ⟨tl, tm, tg⟩ := t
          simp only at h1
          subst h1
          rcases h2 with ⟨_, h3, h4, h5⟩ | ⟨h3, h4, h5, h6, h7⟩
          · simp only [World.view] at h3 h4
            subst h3; subst h4
            exact .refused hl h5
          · simp only [World.view] at h3 h4 h5
            subst h4; subst h5
            refine .started hl h3 h6 ?_
            rcases h7 with ⟨_, h8, h9⟩ | ⟨_, h8, h9⟩
            · exact .inl ⟨h9, h8⟩
            · exact .inr ⟨h9, h8⟩
      | finalize rv =>
        simp only [step, hv, Res.ok.injEq] at hst
        subst hst
        simp only [World.put, finalize_lib, hv]
        exact .finalize hl
      | getSlots =>
        simp only [step, hv] at hst
        split at hst
        · rename_i hf
          have hs : l.status = OK := Classical.byContradiction fun hn => by
            simp [getFunctionList, createExpected, hn, Exp.assignError] at hf
          cases hm : w.modInit with
          | true =>
            have hm' : (w.view i).modInit = true := hm
            simp only [hm', if_true, Res.ok.injEq] at hst
            subst hst
            have e : w.put i (w.view i) = { w with libs := upd w.libs i (some l) } := by
              simp [World.put, World.view, hl]
            rw [e]
            exact .slots hl (fun _ => hm)
          | false =>
            have hm' : (w.view i).modInit = false := hm
            simp only [hm', Bool.false_eq_true, if_false, Res.ok.injEq] at hst
            subst hst
            have e : w.put i ⟨some l, false, .calledUninitialized :: (w.view i).log⟩ =
                { w with libs := upd w.libs i (some l), log := .calledUninitialized :: w.log } := by
              simp [World.put, World.view, hm]
            rw [e]
            exact .slotsUninitialized hl hs hm
        · rename_i hf
          have hs : l.status ≠ OK := fun hs => by
            simp [getFunctionList, createExpected, hs] at hf
          injection hst with hst
          subst hst
          have e : w.put i (w.view i) = { w with libs := upd w.libs i (some l) } := by
            simp [World.put, World.view, hl]
          rw [e]
          exact .slots hl (fun h => absurd h hs)
      | getInterfaceList =>
        simp only [step, hv, Res.ok.injEq] at hst
        subst hst
        have hs : (getInterfaceList l).2.status = l.status := by
          simp only [getInterfaceList]; split <;> rfl
        have e : w.put i { w.view i with lib := some (getInterfaceList l).2 } = { w with libs := upd w.libs i (some (getInterfaceList l).2) } := by
          simp [World.put, World.view]
        rw [e]
        exact .interfaces hl hs
      | drop rv =>
        simp only [step, hv, Res.ok.injEq] at hst
        subst hst
        exact .drop hl

theorem inv_step {can : Nat → Bool} {w w' : World I F} {o : WOp I F} (h : Inv w) (hp : noFinalize w o) (he : wstep can w o = .ok w') : Inv w' := by
  cases o with
  | create i =>
    simp only [wstep] at he
    split at he
    · rename_i hi
      injection he with he
      subst he
      exact inv_create h hi
    · cases he
  | call i o =>
    cases effect he with
    | refused hl hs => exact h.keep hl (by rw [hs]) id h.clean
    | @started a l l' hl hm hi hs =>
      have hnone : ∀ k, ¬ Usable w k := fun k hk => by rw [h.init k hk] at hm; cases hm
      have hc : Pkcs11Spec.Clean (.initialized :: w.log) := clean_cons h.clean (by simp) (by simp)
      have hu : ∀ k, Usable { w with libs := upd w.libs i (some l'), modInit := true, log := .initialized :: w.log } k → k = i := by
        intro k hk
        rw [usable_upd] at hk
        split at hk
        · assumption
        · exact absurd hk (hnone k)
      refine ⟨hc, fun _ _ => rfl, fun j k hj hk => (hu j hj).trans (hu k hk).symm, ?_⟩
      intro k
      show k ∈ w.live ↔ upd w.libs i (some l') k ≠ none
      rw [h.live k]
      by_cases hk : k = i
      · subst hk; simp [upd, hl]
      · simp [upd, hk]
    | finalize hl => exact hp.elim
    | slots hl hs => exact h.keep hl Iff.rfl id h.clean
    | slotsUninitialized hl hs hm =>
      have := h.init i ⟨_, hl, hs⟩
      rw [hm] at this
      cases this
    | interfaces hl hs => exact h.keep hl (by rw [hs]) id h.clean
    | @drop rv l hl =>
      by_cases hs : l.status = OK
      · have hm : w.modInit = true := h.init i ⟨l, hl, hs⟩
        have hm' : (w.view i).modInit = true := hm
        rw [finalize_usable hs hm']
        have hno : ∀ k, k ≠ i → ¬ Usable w k := fun k hk hu => hk (h.one k i hu ⟨l, hl, hs⟩)
        split
        · exact h.close (clean_cons h.clean (by simp) (by simp)) (fun k hk hu => absurd hu (hno k hk))
        · exact h.close (clean_cons h.clean (by simp) (by simp)) (fun k hk hu => absurd hu (hno k hk))
      · rw [finalize_not hs]
        exact h.close h.clean (fun k _ hu => h.init k hu)

/-- The module is initialised only for an object that is usable, it is never unloaded while initialised, and every initialisation but the last one was
followed by its finalisation. -/
structure Tidy (w : World I F) : Prop extends Inv w where
  owned : w.modInit = true → ∃ i, Usable w i
  unloads : ∀ b ∈ w.unloads, b = false
  order : seen w.log = some w.modInit

theorem tidy_noFinalize {w : World I F} {o : WOp I F} (h : tidy w o) : noFinalize w o := by
  cases o with
  | create i => trivial
  | call i o => cases o <;> first | trivial | exact h

theorem usable_keep {w : World I F} {i k : Nat} {l l' : Lib I F} {b : Bool} {g : List Ev} (hl : w.libs i = some l)
    (hst : l'.status = OK ↔ l.status = OK) (hk : Usable w k) : Usable { w with libs := upd w.libs i (some l'), modInit := b, log := g } k := by
  rw [usable_upd]
  split
  · rename_i he
    subst he
    obtain ⟨x, h1, h2⟩ := hk
    rw [hl, Option.some.injEq] at h1
    subst h1
    exact hst.mpr h2
  · exact hk

theorem tidy_step {can : Nat → Bool} {w w' : World I F} {o : WOp I F} (h : Tidy w) (hp : tidy w o) (he : wstep can w o = .ok w') : Tidy w' := by
  refine { toInv := inv_step h.toInv (tidy_noFinalize hp) he, owned := ?_, unloads := ?_, order := ?_ }
  all_goals
    cases o with
    | create i =>
      simp only [wstep] at he
      split at he
      · rename_i hi
        injection he with he
        subst he
        first
        | exact h.unloads
        | exact h.order
        | · intro hm
            obtain ⟨k, l, hk, hs⟩ := h.owned hm
            refine ⟨k, l, ?_, hs⟩
            have hne : k ≠ i := fun e => by subst e; rw [hi] at hk; cases hk
            simpa [upd, hne] using hk
      · cases he
    | call i o => ?_
  · cases effect he with
    | refused hl hs => intro hm; obtain ⟨k, hk⟩ := h.owned hm; exact ⟨k, usable_keep hl (by rw [hs]) hk⟩
    | started hl hm hi hs =>
      intro _
      rcases hs with ⟨_, hs⟩ | ⟨hs, _⟩
      · exact ⟨i, by rw [usable_upd]; simpa using hs⟩
      · exact absurd (hp hi) hs
    | finalize hl => exact hp.elim
    | slots hl hs => intro hm; obtain ⟨k, hk⟩ := h.owned hm; exact ⟨k, usable_keep hl Iff.rfl hk⟩
    | slotsUninitialized hl hs hm => intro hm'; rw [show w.modInit = true from hm'] at hm; cases hm
    | interfaces hl hs => intro hm; obtain ⟨k, hk⟩ := h.owned hm; exact ⟨k, usable_keep hl (by rw [hs]) hk⟩
    | @drop rv l hl =>
      intro hm
      by_cases hs : l.status = OK
      · have hm' : (w.view i).modInit = true := h.init i ⟨l, hl, hs⟩
        rw [finalize_usable hs hm', if_pos (show rv = OK from hp)] at hm
        simp only [World.close] at hm
        split at hm <;> cases hm
      · rw [finalize_not hs] at hm ⊢
        simp only [World.close] at hm ⊢
        split at hm
        · cases hm
        · rename_i hne
          rw [if_neg hne]
          obtain ⟨k, x, hk, hx⟩ := h.owned hm
          have hki : k ≠ i := fun e => by
            subst e
            rw [hl, Option.some.injEq] at hk
            subst hk
            exact hs hx
          exact ⟨k, x, by simpa [upd, hki] using hk, hx⟩
  · cases effect he with
    | finalize hl => exact hp.elim
    | @drop rv l hl =>
      intro b hb
      simp only [World.close] at hb
      split at hb
      · rename_i hnil
        rcases List.mem_cons.mp hb with hb | hb
        · subst hb
          by_cases hs : l.status = OK
          · have hm' : (w.view i).modInit = true := h.init i ⟨l, hl, hs⟩
            rw [finalize_usable hs hm', if_pos (show rv = OK from hp)]
          · rw [finalize_not hs]
            show w.modInit = false
            cases hm : w.modInit with
            | false => rfl
            | true =>
              obtain ⟨k, x, hk, hx⟩ := h.owned hm
              have hki : k ≠ i := fun e => by
                subst e
                rw [hl, Option.some.injEq] at hk
                subst hk
                exact hs hx
              have : k ∈ w.live.filter (fun j => decide (j ≠ i)) := by
                simp [hki, h.live k, hk]
              rw [hnil] at this
              cases this
        · exact h.unloads b hb
      · exact h.unloads b hb
    | _ => exact h.unloads
  · have hord := h.order
    cases effect he with
    | refused hl hs => exact h.order
    | started hl hm hi hs =>
      simp only [hm] at hord
      simp [seen, hord]
    | finalize hl => exact hp.elim
    | slots hl hs => exact h.order
    | slotsUninitialized hl hs hm =>
      have := h.init i ⟨_, hl, hs⟩
      rw [hm] at this
      cases this
    | interfaces hl hs => exact h.order
    | @drop rv l hl =>
      by_cases hs : l.status = OK
      · have hm : w.modInit = true := h.init i ⟨l, hl, hs⟩
        have hm' : (w.view i).modInit = true := hm
        rw [finalize_usable hs hm', if_pos (show rv = OK from hp)]
        simp only [hm] at hord
        simp only [World.close]
        split <;> simp [World.view, seen, hord]
      · rw [finalize_not hs]
        simp only [World.close]
        split
        · rename_i hnil
          have hmf : w.modInit = false := by
            cases hm : w.modInit with
            | false => rfl
            | true =>
              obtain ⟨k, x, hk, hx⟩ := h.owned hm
              have hki : k ≠ i := fun e => by
                subst e
                rw [hl, Option.some.injEq] at hk
                subst hk
                exact hs hx
              have : k ∈ w.live.filter (fun j => decide (j ≠ i)) := by
                simp [hki, h.live k, hk]
              rw [hnil] at this
              cases this
          simpa [World.view, hmf] using hord
        · exact hord

theorem reach_inv {can : Nat → Bool} {w : World I F} (h : Reach (wstep can) noFinalize World.start w) : Inv w :=
  h.inv (P := Inv) inv_start (fun _ _ _ hi hp he => inv_step hi hp he)

theorem reach_tidy {can : Nat → Bool} {w : World I F} (h : Reach (wstep can) tidy World.start w) : Tidy w :=
  h.inv (P := Tidy) { toInv := inv_start, owned := by simp [World.start], unloads := by simp [World.start], order := rfl }
    (fun _ _ _ hi hp he => tidy_step hi hp he)

/-- A module that does everything it is asked for, without an interface list. -/
def good (x : F) : Answers I F := ⟨some OK, none, OK, OK, x⟩

/-- `initialize` through a module that is not initialised and does everything it is asked for. -/
theorem start_good {can : Nat → Bool} {w : World I F} {j : Nat} {l : Lib I F} (x : F) (hl : w.libs j = some l) (hm : w.modInit = false) :
    wstep can w (.call j (.start (good x))) = .ok { w with
      libs := upd w.libs j (some { l with status := OK, functions := true, info := some x })
      modInit := true
      log := .initialized :: w.log } := by
  have hn : NOT_SUPPORTED ≠ OK := by decide
  simp [wstep, step, World.view, hl, hm, initAll, initializeFunctionList, initializeInterfaceList, good, initializeRest, cInitialize, World.put]

theorem upd_same {α : Type} {f : Nat → α} {i : Nat} {a : α} : upd f i a i = a := by simp [upd]
theorem upd_ne {α : Type} {f : Nat → α} {i j : Nat} {a : α} (h : j ≠ i) : upd f i a j = f j := by simp [upd, h]
theorem upd_idem {α : Type} {f : Nat → α} {i : Nat} {a : α} (h : f i = a) : upd f i a = f := by
  funext k; by_cases hk : k = i <;> simp [upd, hk, h]

/-- The destructor of a usable object, while there are others. -/
theorem drop_usable {can : Nat → Bool} {w : World I F} {i : Nat} {l : Lib I F} (hl : w.libs i = some l) (hs : l.status = OK) (hm : w.modInit = true)
    (hne : w.live.filter (fun k => decide (k ≠ i)) ≠ []) :
    wstep can w (.call i (.drop OK)) = .ok { w with
      libs := upd w.libs i none
      modInit := false
      log := .finalized true :: w.log
      live := w.live.filter (fun k => decide (k ≠ i)) } := by
  have hm' : (w.view i).modInit = true := hm
  have e : step can (w.view i) (.drop OK) = .ok ⟨none, false, .finalized true :: w.log⟩ := by
    have hv : (w.view i).lib = some l := hl
    simp only [step, hv, finalize_usable hs hm', if_true]
    rfl
  simp only [wstep, e, World.put, World.close]
  rw [if_neg hne]

/-- The destructor of the last object, which is not usable. -/
theorem drop_last {can : Nat → Bool} {w : World I F} {i : Nat} {l : Lib I F} {rv : Rv} (hl : w.libs i = some l) (hs : l.status ≠ OK)
    (hnil : w.live.filter (fun k => decide (k ≠ i)) = []) :
    wstep can w (.call i (.drop rv)) = .ok { w with
      libs := upd w.libs i none
      modInit := false
      live := []
      unloads := w.modInit :: w.unloads } := by
  have e : step can (w.view i) (.drop rv) = .ok ⟨none, w.modInit, w.log⟩ := by
    have hv : (w.view i).lib = some l := hl
    simp only [step, hv, finalize_not hs]
    rfl
  simp only [wstep, e, World.put, World.close]
  rw [if_pos hnil]

/-- Reading the slots through a usable object while the module is not initialised. -/
theorem slots_uninitialized {can : Nat → Bool} {w : World I F} {j : Nat} {l : Lib I F} (hl : w.libs j = some l) (hs : l.status = OK) (hm : w.modInit = false) :
    wstep can w (.call j .getSlots) = .ok { w with log := .calledUninitialized :: w.log } := by
  have e : step can (w.view j) .getSlots = .ok ⟨some l, false, .calledUninitialized :: w.log⟩ := by
    have hv : (w.view j).lib = some l := hl
    have hm' : (w.view j).modInit = false := hm
    simp only [step, hv, getFunctionList, createExpected, hs, if_true, hm', Bool.false_eq_true, if_false]
    rfl
  simp only [wstep, e, World.put]
  rw [upd_idem hl, ← hm]

theorem run_cons {S O : Type} {f : S → O → Res S} {s s' : S} {o : O} {os : List O} {r : Res S} (h : f s o = .ok s') (hr : runOps f s' os = r) :
    runOps f s (o :: os) = r := by
  simp only [runOps, h]
  exact hr

end PkShared

open PkShared

/-- **C189, what holds.** In a program that leaves finalisation to the destructors, whatever the module answers: at most one of the objects is usable; as
long as one is, the module is initialised; and the module never sees a call while it is not initialised, through whatever object. -/
theorem C189_shared_partial {can : Nat → Bool} {w : World I F} (h : Reach (wstep can) noFinalize World.start w) :
    Pkcs11Spec.Clean w.log ∧ (∀ i, Usable w i → w.modInit = true) ∧ (∀ i j, Usable w i → Usable w j → i = j) :=
  ⟨(reach_inv h).clean, (reach_inv h).init, (reach_inv h).one⟩

/-- **C189, a module that does not fail.** If moreover `C_GetInfo` works after `C_Initialize` and `C_Finalize` succeeds: the module is initialised exactly
while one object is usable, it saw the calls in the order it requires, so that each initialisation was finalised before the next one, the module is never unloaded while initialised, and without objects it
is not initialised. -/
theorem C189_tidy_partial {can : Nat → Bool} {w : World I F} (h : Reach (wstep can) tidy World.start w) :
    (w.modInit = true ↔ ∃ i, Usable w i) ∧ (∀ b ∈ w.unloads, b = false) ∧ ((∀ i, w.libs i = none) → w.modInit = false) ∧
    seen w.log = some w.modInit ∧ w.log.count .initialized = w.log.count (.finalized true) + (if w.modInit then 1 else 0) := by
  have ht := reach_tidy h
  refine ⟨⟨ht.owned, fun ⟨i, hi⟩ => ht.init i hi⟩, ht.unloads, ?_, ht.order, seen_pairs _ _ ht.order⟩
  intro hn
  cases hm : w.modInit with
  | false => rfl
  | true =>
    obtain ⟨i, l, hl, _⟩ := ht.owned hm
    rw [hn i] at hl
    cases hl

/-- **C189, the objects do not disturb the one that is usable.** Another object is created, asked to initialise (which is refused), queried and destroyed,
in any order and any number of times; the usable one stays usable and the module stays initialised. -/
theorem C189_undisturbed {can : Nat → Bool} {w w' : World I F} (h : Reach (wstep can) noFinalize World.start w) {i : Nat} (hi : Usable w i) {o : WOp I F}
    (ho : o = .create i ∨ (∃ j, j ≠ i ∧ (o = .create j ∨ ∃ p, o = .call j p ∧ ∀ rv, p ≠ .finalize rv))) (he : wstep can w o = .ok w') :
    Usable w' i ∧ w'.modInit = true ∧ w'.log = w.log ∧ ∀ j, j ≠ i → ¬ Usable w' j := by
  have hv := reach_inv h
  have hm := hv.init i hi
  have hp : noFinalize w o := by
    rcases ho with rfl | ⟨j, _, rfl | ⟨p, rfl, hp⟩⟩
    · trivial
    · trivial
    · cases p with
      | finalize rv => exact hp rv rfl
      | _ => trivial
  have key : Usable w' i ∧ w'.modInit = true ∧ w'.log = w.log := by
    have hcr : ∀ j, wstep can w (.create j) = .ok w' → Usable w' i ∧ w'.modInit = true ∧ w'.log = w.log := by
      intro j hc
      simp only [wstep] at hc
      split at hc
      · rename_i hj
        injection hc with hc
        subst hc
        obtain ⟨l, hl, hs⟩ := hi
        have hne : i ≠ j := fun e => by subst e; rw [hj] at hl; cases hl
        exact ⟨⟨l, by simpa [upd, hne] using hl, hs⟩, hm, rfl⟩
      · cases hc
    rcases ho with rfl | ⟨j, hj, rfl | ⟨p, rfl, hpf⟩⟩
    · exact hcr i he
    · exact hcr j he
    · have hju : ∀ l, w.libs j = some l → l.status ≠ OK := fun l hl hs => hj (hv.one j i ⟨l, hl, hs⟩ hi)
      cases effect he with
      | refused hl hs => exact ⟨usable_keep hl (by rw [hs]) hi, hm, rfl⟩
      | started hl hm' _ _ => rw [hm] at hm'; cases hm'
      | finalize hl => exact absurd rfl (hpf _)
      | slots hl hs => exact ⟨usable_keep hl Iff.rfl hi, hm, rfl⟩
      | slotsUninitialized hl hs hm' => rw [hm] at hm'; cases hm'
      | interfaces hl hs => exact ⟨usable_keep hl (by rw [hs]) hi, hm, rfl⟩
      | @drop rv l hl =>
        rw [finalize_not (hju l hl)]
        obtain ⟨x, hx, hxs⟩ := hi
        have hmem : i ∈ w.live.filter (fun k => decide (k ≠ j)) := by
          simp [hv.live i, hx, Ne.symm hj]
        have hne : w.live.filter (fun k => decide (k ≠ j)) ≠ [] := fun e => by rw [e] at hmem; cases hmem
        simp only [World.close]
        rw [if_neg hne]
        exact ⟨⟨x, by simpa [upd, Ne.symm hj] using hx, hxs⟩, hm, rfl⟩
  refine ⟨key.1, key.2.1, key.2.2, ?_⟩
  intro j hj hju
  exact hj ((inv_step hv hp he).one j i hju key.1)

/-- **C189, taking over.** When the usable object was destroyed, another one that was refused before can be initialised and is usable. -/
theorem C189_takeover {can : Nat → Bool} {w : World I F} (h : Reach (wstep can) noFinalize World.start w) {i j : Nat} (hi : Usable w i) (hij : j ≠ i)
    {lj : Lib I F} (hj : w.libs j = some lj) (x : F) :
    ∃ w', runOps (wstep can) w [.call i (.drop OK), .call j (.start (good x))] = .ok w' ∧ Usable w' j ∧ ¬ Usable w' i ∧ w'.modInit = true := by
  have hv := reach_inv h
  have hm := hv.init i hi
  obtain ⟨l, hl, hs⟩ := hi
  have hmem : j ∈ w.live.filter (fun k => decide (k ≠ i)) := by simp [hv.live j, hj, hij]
  have hne : w.live.filter (fun k => decide (k ≠ i)) ≠ [] := fun e => by rw [e] at hmem; cases hmem
  have h2 := start_good (can := can) (w := { w with
      libs := upd w.libs i none
      modInit := false
      log := .finalized true :: w.log
      live := w.live.filter (fun k => decide (k ≠ i)) }) (j := j) (l := lj) x (by simpa [upd, hij] using hj) rfl
  refine ⟨_, run_cons (drop_usable hl hs hm hne) (run_cons h2 rfl), ⟨_, upd_same, rfl⟩, ?_, rfl⟩
  rintro ⟨y, hy, _⟩
  simp only [upd, Ne.symm hij, if_false, if_true] at hy
  cases hy

/-- **C189 fails, `finalize()` on one object.** It leaves that object usable.  Another object can then be initialised; when the first one is destroyed, it
finalises the module a second time — under the second object, which is still usable and whose next call reaches a module that is not initialised. -/
theorem C189_finalize_violated {can : Nat → Bool} {w : World I F} {i j : Nat} (hij : j ≠ i) (hi : Usable w i) (hm : w.modInit = true)
    {lj : Lib I F} (hj : w.libs j = some lj) (hlive : j ∈ w.live) (x : F) :
    ∃ w', runOps (wstep can) w [.call i (.finalize OK), .call j (.start (good x)), .call i (.drop OK), .call j .getSlots] = .ok w' ∧
      Usable w' j ∧ w'.modInit = false ∧ w'.log = .calledUninitialized :: .finalized true :: .initialized :: .finalized true :: w.log := by
  obtain ⟨l, hl, hs⟩ := hi
  have h1 : wstep can w (.call i (.finalize OK)) = .ok { w with modInit := false, log := .finalized true :: w.log } := by
    have hv1 : (w.view i).lib = some l := hl
    have hm' : (w.view i).modInit = true := hm
    simp only [wstep, step, hv1, finalize_usable hs hm', if_true, World.put]
    rw [upd_idem hl]
    rfl
  have h2 := start_good (can := can) (w := { w with modInit := false, log := .finalized true :: w.log }) (j := j) (l := lj) x hj rfl
  have hmem : j ∈ w.live.filter (fun k => decide (k ≠ i)) := by simp [hlive, hij]
  have hne : w.live.filter (fun k => decide (k ≠ i)) ≠ [] := fun e => by rw [e] at hmem; cases hmem
  have hi2 : upd w.libs j (some { lj with status := OK, functions := true, info := some x }) i = some l := by
    rw [upd_ne (Ne.symm hij)]; exact hl
  have h3 := drop_usable (can := can) (w := { w with
      libs := upd w.libs j (some { lj with status := OK, functions := true, info := some x })
      modInit := true
      log := .initialized :: .finalized true :: w.log }) hi2 hs rfl hne
  have hj3 : upd (upd w.libs j (some { lj with status := OK, functions := true, info := some x })) i none j =
      some { lj with status := OK, functions := true, info := some x } := by
    rw [upd_ne hij, upd_same]
  have h4 := slots_uninitialized (can := can) (w := { w with
      libs := upd (upd w.libs j (some { lj with status := OK, functions := true, info := some x })) i none
      modInit := false
      log := .finalized true :: .initialized :: .finalized true :: w.log
      live := w.live.filter (fun k => decide (k ≠ i)) }) hj3 rfl rfl
  exact ⟨_, run_cons h1 (run_cons h2 (run_cons h3 (run_cons h4 rfl))), ⟨_, hj3, rfl⟩, rfl, rfl⟩

/-- **C189 fails, a failing `C_GetInfo`.** The object that initialised the module is not usable, no other one can be initialised any more, and the module
is unloaded while it is initialised. -/
theorem C189_info_violated {can : Nat → Bool} {w : World I F} {i : Nat} {l : Lib I F} (hl : w.libs i = some l) (hs : l.status ≠ OK) (hm : w.modInit = false)
    (hlive : ∀ k ∈ w.live, k = i) {e : Rv} (he : e ≠ OK) (x : F) :
    ∃ w₁, wstep can w (.call i (.start ⟨some OK, none, OK, e, x⟩)) = .ok w₁ ∧ w₁.modInit = true ∧ ¬ Usable w₁ i ∧
      (∀ j a lj rv s, w₁.libs j = some lj → initAll can a (w₁.view j) lj = .ok (rv, s) → rv ≠ OK ∧ s.modInit = true) ∧
      ∃ w₂, wstep can w₁ (.call i (.drop OK)) = .ok w₂ ∧ w₂.unloads = true :: w.unloads := by
  have h1 : wstep can w (.call i (.start ⟨some OK, none, OK, e, x⟩)) = .ok { w with
      libs := upd w.libs i (some { l with functions := true })
      modInit := true
      log := .initialized :: w.log } := by
    have hn : NOT_SUPPORTED ≠ OK := by decide
    simp [wstep, step, World.view, hl, hm, initAll, initializeFunctionList, initializeInterfaceList, initializeRest, cInitialize, World.put, he]
  have hnil : w.live.filter (fun k => decide (k ≠ i)) = [] := by
    apply List.filter_eq_nil_iff.mpr
    intro k hk
    simp [hlive k hk]
  refine ⟨_, h1, rfl, ?_, ?_, ?_⟩
  · rintro ⟨y, hy, hys⟩
    simp only [upd, if_true, Option.some.injEq] at hy
    subst hy
    exact hs hys
  · intro j a lj rv s _ hia
    obtain ⟨_, _, h2⟩ := start_effect hia
    rcases h2 with ⟨h3, h4, _, _⟩ | ⟨h3, _⟩
    · exact ⟨h3, h4⟩
    · cases h3
  · exact ⟨_, drop_last (l := { l with functions := true }) upd_same hs hnil, rfl⟩

/-- **C189 fails, the refused object does not say so.** While one object is usable, `initialize` of another one reports an error; afterwards that object
still answers "no slots" as a success. -/
theorem C189_refused_violated {can : Nat → Bool} {w : World I F} (h : Reach (wstep can) noFinalize World.start w) {i j : Nat} (hi : Usable w i) (hij : j ≠ i)
    {lj : Lib I F} (hj : w.libs j = some lj) {a : Answers I F} {rv : Rv} {s : St I F} (hia : initAll can a (w.view j) lj = .ok (rv, s)) (m : Slots) :
    rv ≠ OK ∧ ∃ l', s.lib = some l' ∧ l'.status ≠ OK ∧ getSlotIdCount m l' = .result 0 := by
  have hv := reach_inv h
  have hne : lj.status ≠ OK := fun hs => hij (hv.one j i ⟨lj, hj, hs⟩ hi)
  obtain ⟨l', h1, h2⟩ := start_effect hia
  rcases h2 with ⟨h3, _, _, h5⟩ | ⟨h3, _⟩
  · refine ⟨h3, l', h1, by rw [h5]; exact hne, ?_⟩
    have : l'.status ≠ OK := by rw [h5]; exact hne
    simp [getSlotIdCount, getFunctionList, createExpected, this, Exp.assignError, Exp.visit]
  · have := hv.init i hi
    rw [show w.modInit = false from h3] at this
    cases this

instance (w : World I F) (o : WOp I F) : Decidable (noFinalize w o) := by
  cases o with
  | create i => exact .isTrue trivial
  | call i p => cases p <;> first | exact .isTrue trivial | exact .isFalse id

instance (w : World I F) (o : WOp I F) : Decidable (tidy w o) := by
  cases o with
  | create i => exact .isTrue trivial
  | call i p =>
    cases p with
    | start a => exact inferInstanceAs (Decidable (_ = _ → _ = _))
    | finalize rv => exact .isFalse id
    | drop rv => exact inferInstanceAs (Decidable (_ = _))
    | _ => exact .isTrue trivial

/-- What an object says: is it usable. -/
def says (w : World I F) (i : Nat) : Option Bool := (w.libs i).map fun l => l.status == OK

/-- Two objects for one module: the first is initialised and the second refused. -/
example : ∃ w : World Nat Nat, Reach (wstep fun _ => true) noFinalize World.start w ∧
    (says w 0, says w 1, w.modInit, w.log, w.live) = (some true, some false, true, [.initialized], [1, 0]) :=
  Reach.witness [.create 0, .create 1, .call 0 (.start (good 5)), .call 1 (.start (good 6))] _ _ (by decide +kernel)

/-- Then the first is destroyed, and the second can be initialised. -/
example : ∃ w : World Nat Nat, Reach (wstep fun _ => true) tidy World.start w ∧
    (says w 0, says w 1, w.modInit, w.log) = (none, some true, true, [.initialized, .finalized true, .initialized]) :=
  Reach.witness [.create 0, .create 1, .call 0 (.start (good 5)), .call 1 (.start (good 6)), .call 0 (.drop OK), .call 1 (.start (good 7))]
    _ _ (by decide +kernel)

/-- When both are gone, the module is unloaded, finalised before; opened again, it is as new. -/
example : ∃ w : World Nat Nat, Reach (wstep fun _ => true) tidy World.start w ∧
    (says w 0, w.modInit, w.log, w.unloads) = (some true, true, [.initialized, .finalized true, .initialized], [false]) :=
  Reach.witness [.create 0, .create 1, .call 0 (.start (good 5)), .call 1 .getSlots, .call 0 (.drop OK), .call 1 (.drop OK), .create 0,
    .call 0 (.start (good 7))] _ _ (by decide +kernel)

/-- A module whose `C_GetInfo` fails: the refused objects, and the module unloaded while initialised. -/
example : ∃ w : World Nat Nat, Reach (wstep fun _ => true) noFinalize World.start w ∧ (w.modInit, w.unloads) = (false, [true]) :=
  Reach.witness [.create 0, .call 0 (.start ⟨some OK, none, OK, 5, 1⟩), .create 1, .call 1 (.start (good 2)), .call 1 (.drop OK), .call 0 (.drop OK)]
    _ _ (by decide +kernel)

/-! The theorems at two objects of one module, the first of them initialised. -/

namespace PkShared

def exWorld : World Nat Nat := Own.visit (wstep fun _ => true) noFinalize World.start [.create 0, .create 1, .call 0 (.start (good 5))]

theorem exWorld_reach : Reach (wstep fun _ => true) noFinalize World.start exWorld := .visit _ (by decide +kernel)

theorem exWorld_tidy : Reach (wstep fun _ => true) tidy World.start exWorld :=
  Reach.visit (step := wstep fun _ => true) (pre := tidy) (s₀ := World.start) [.create 0, .create 1, .call 0 (.start (good 5))] (by decide +kernel)

theorem exWorld_usable : Usable exWorld 0 := ⟨_, rfl, rfl⟩

def exFresh : World Nat Nat := Own.visit (wstep fun _ => true) noFinalize World.start [.create 0]

end PkShared

example := C189_shared_partial exWorld_reach
example := C189_tidy_partial exWorld_tidy
example := C189_undisturbed exWorld_reach exWorld_usable (o := .call 1 .getSlots) (.inr ⟨1, by decide, .inr ⟨_, rfl, by simp⟩⟩) rfl
example := C189_takeover exWorld_reach exWorld_usable (j := 1) (by decide) rfl 6
example := C189_finalize_violated (can := fun _ => true) (j := 1) (by decide) exWorld_usable rfl rfl (by decide) 6
example := C189_info_violated (can := fun _ => true) (w := exFresh) (i := 0) rfl (by decide) rfl (by decide) (e := 5) (by decide) 6
example := C189_refused_violated exWorld_reach exWorld_usable (j := 1) (by decide) rfl (a := good 6) rfl ⟨0, 3, 0, [5]⟩

end Flame
