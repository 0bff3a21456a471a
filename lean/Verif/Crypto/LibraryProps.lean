import Verif.Crypto.Library
import Verif.Vector.Lemmas
import Verif.Life.ExpectedVarProps

/-! # C80–C83: the PKCS#11 library object -/

namespace Flame
open Pkcs11
open Flame.Own (Reach)
variable {I F : Type}

/-- `Exp.assignError` is what the model of `Expected` does: an `Expected` freshly declared and then assigned a named error holds nothing. -/
theorem Pkcs11.assignError_bridge {V : Type} {moved : V → V} {s s' : Life.Variant.St V} (hr : Life.ExpectedVar.Run moved s) {i : Nat} (v : V)
    (hi : s.vars i ≠ none) (h : Life.ExpectedVar.step moved s (.setErrorConst i v) = .ok s') :
    Life.Variant.contents Life.ExpectedVar.pack s' i = some none := by
  obtain ⟨t, h1, h2, _⟩ := C34_assign_error_lost hr v hi
  rw [h1] at h
  injection h with h
  rw [← h]
  exact h2

/-! ## C80: failures are reported -/

/-- **C80 fails.** On an object that was not (successfully) initialised: the number of slots is *0, as a result*; the list of slots is *an empty
list, as a result*; `finalize()` returns *OK*; and `getInfo()`, `getFunctionList()` call neither handler. -/
theorem C80_uninitialized_violated (l : Lib I F) (h : l.status ≠ OK) (can : Nat → Bool) (fuel : Nat) (m : Slots)
    (rv : Rv) (s : Pkcs11.St I F) :
    getSlotIdCount m l = .result 0 ∧ (∃ v, getSlotIdList can (fuel + 1) m l = .ok (.result v) ∧ v.toList = .ok []) ∧
    finalize rv s l = (OK, s) ∧ getInfo l = .nothing ∧ getFunctionList l = .nothing := by
  have hf : getFunctionList l = .nothing := by simp [getFunctionList, createExpected, h, Exp.assignError]
  have hc : getSlotIdCount m l = .result 0 := by simp [getSlotIdCount, hf, Exp.visit, createExpected]
  refine ⟨hc, ?_, by simp [finalize, hf, Exp.visit], by simp [getInfo, createExpected, h, Exp.assignError], hf⟩
  refine ⟨Vec.empty, ?_, rfl⟩
  simp [getSlotIdList, hc, readSlots, Vec.reserve, Vec.empty, Vec.resize, hf, Vec.moveCtor]

/-- **C80 fails in general.** No function of the object ever hands out an error: whatever the module answers, the error handler is not called. -/
theorem C80_never_an_error (l : Lib I F) (can : Nat → Bool) (fuel : Nat) (m : Slots) (e : Rv) :
    getSlotIdCount m l ≠ .error e ∧ getSlotIdList can fuel m l ≠ .ok (.error e) ∧ getInfo l ≠ .error e ∧
    getFunctionList l ≠ .error e ∧ (getInterfaceList l).1 ≠ .error e := by
  have hc : ∀ {α : Type} (a : α) (rv : Rv), createExpected a rv ≠ .error e := by
    intro α a rv
    simp only [createExpected, Exp.assignError]
    split <;> simp
  refine ⟨hc _ _, ?_, hc _ _, hc _ _, ?_⟩
  · simp only [getSlotIdList]
    split
    · split
      · split <;> simp [Exp.assignError]
      · simp
      · simp
    · split <;> simp [Exp.assignError]
    · simp
  · simp only [getInterfaceList]
    split <;> simp [Exp.assignError]

/-- **C80, what holds.** On an initialised object the information and the number of slots are the module's; if the module fails, nothing is
handed out. -/
theorem C80_initialized_partial (l : Lib I F) (h : l.status = OK) (m : Slots) :
    getInfo l = .result l.info ∧ getSlotIdCount m l = if m.rv1 = OK then .result m.count else .nothing := by
  have hf : getFunctionList l = .result () := by simp [getFunctionList, createExpected, h]
  refine ⟨by simp [getInfo, createExpected, h], ?_⟩
  simp [getSlotIdCount, hf, Exp.visit, createExpected, Exp.assignError]

/-- **C80, initialisation.** `initialize` returns the first failure of the four steps (a missing interface list is none), and `OK` exactly if the object
is usable afterwards — for an object that was not initialised before. -/
theorem C80_initialize_result (can : Nat → Bool) (hcan : ∀ n, can n = true) (a : Answers I F) (s : Pkcs11.St I F) (l : Lib I F)
    (hl : l.status ≠ OK) (hm : s.modInit = false)
    (hlist : ∀ rv1 c rv2 xs, a.interfaceList = some (rv1, c, rv2, xs) → xs.length ≤ c) :
    ∃ rv s', initAll can a s l = .ok (rv, s') ∧
      (rv = OK ↔ ∃ l', s'.lib = some l' ∧ l'.status = OK) ∧
      rv = (match a.functionList with
        | none => l.status
        | some rv0 => if rv0 ≠ OK then rv0 else
          match a.interfaceList with
          | some (rv1, c, rv2, _) =>
            if rv1 ≠ OK ∧ rv1 ≠ NOT_SUPPORTED then rv1
            else if rv1 = OK ∧ c ≠ 0 ∧ rv2 ≠ OK ∧ rv2 ≠ NOT_SUPPORTED then rv2
            else if a.initRv ≠ OK then a.initRv else a.info
          | none => if a.initRv ≠ OK then a.initRv else a.info) := by
  have hrest : ∀ l' : Lib I F, l'.status ≠ OK → ∃ s', initializeRest a s l' = ((if a.initRv ≠ OK then a.initRv else a.info), s') ∧
      ((if a.initRv ≠ OK then a.initRv else a.info) = OK ↔ ∃ l'', s'.lib = some l'' ∧ l''.status = OK) := by
    intro l' hl'
    by_cases hi : a.initRv = OK
    · by_cases hinf : a.info = OK
      · refine ⟨{ s with lib := some { l' with status := OK, info := some a.infoValue }, modInit := true, log := .initialized :: s.log }, by
          simp [initializeRest, cInitialize, hm, hi, hinf], ?_⟩
        simp [hi, hinf]
      · refine ⟨{ s with lib := some l', modInit := true, log := .initialized :: s.log }, by
          simp [initializeRest, cInitialize, hm, hi, hinf], ?_⟩
        simp [hi, hinf, hl']
    · refine ⟨{ s with lib := some l' }, ?_, ?_⟩
      · simp [initializeRest, cInitialize, hm, hi]
      · simp [hi, hl']
  have hfn : initializeFunctionList a l = match a.functionList with
      | none => (l.status, l)
      | some rv => if rv ≠ OK then (rv, l) else (rv, { l with functions := true }) := rfl
  cases hfl : a.functionList with
  | none =>
    refine ⟨l.status, { s with lib := some l }, ?_, ?_, rfl⟩
    · simp [initAll, hfn, hfl, hl]
    · simp [hl]
  | some rv0 =>
    by_cases h0 : rv0 = OK
    · simp only [h0, ne_eq, not_true, if_false]
      have hfn' : initializeFunctionList a l = (OK, { l with functions := true }) := by simp [hfn, hfl, h0]
      cases hil : a.interfaceList with
      | none =>
        obtain ⟨s', e1, e2⟩ := hrest { l with functions := true } hl
        refine ⟨_, s', ?_, e2, rfl⟩
        simp [initAll, hfn', initializeInterfaceList, hil, NOT_SUPPORTED, OK, e1]
      | some q =>
        obtain ⟨rv1, c, rv2, xs⟩ := q
        have hx := hlist rv1 c rv2 xs hil
        simp only
        by_cases h1 : rv1 = OK
        · subst h1
          by_cases hc : c = 0
          · obtain ⟨s', e1, e2⟩ := hrest { l with functions := true } hl
            refine ⟨_, s', ?_, e2, ?_⟩
            · simp [initAll, hfn', initializeInterfaceList, hil, hc, e1]
            · simp [hc]
          · by_cases h2 : rv2 = OK
            · subst h2
              have hfill : fill ((Vec.empty : Vec I).reserve can c) xs =
                  .ok ⟨xs.map .live ++ List.replicate (c - xs.length) .raw, c, 0⟩ := by
                have hr : (Vec.empty : Vec I).reserve can c = ⟨[] ++ (List.replicate xs.length .raw ++ List.replicate (c - xs.length) .raw), c, 0⟩ := by
                  have : 0 < c := by omega
                  rw [List.nil_append, List.replicate_append_replicate, show xs.length + (c - xs.length) = c by omega]
                  simp [Vec.reserve, Vec.empty, this, hcan]
                rw [fill, hr]
                simp only
                rw [Cells.assignList_append true (by simp) (by simp) (by simp)]
                simp [Bind.bind, Res.bind]
              obtain ⟨s', e1, e2⟩ := hrest { l with functions := true, ifaces := .result ⟨xs.map .live ++ List.replicate (c - xs.length) .raw, c, 0⟩ } hl
              refine ⟨_, s', ?_, e2, ?_⟩
              · simp [initAll, hfn', initializeInterfaceList, hil, hc, hfill, Vec.moveCtor, e1]
              · simp
            · by_cases h3 : rv2 = NOT_SUPPORTED
              · obtain ⟨s', e1, e2⟩ := hrest { l with functions := true, ifaces := .assignError rv2 } hl
                refine ⟨_, s', ?_, e2, ?_⟩
                · subst h3
                  simp only [Exp.assignError] at e1
                  simp only [initAll, hfn', initializeInterfaceList, hil, Exp.assignError]
                  simp [hc, OK, NOT_SUPPORTED, e1]
                · simp [h3]
              · refine ⟨rv2, { s with lib := some { l with functions := true, ifaces := .assignError rv2 } }, ?_, ?_, ?_⟩
                · simp [initAll, hfn', initializeInterfaceList, hil, hc, h2, h3]
                · simp [h2, hl]
                · simp [hc, h2, h3]
        · by_cases h3 : rv1 = NOT_SUPPORTED
          · obtain ⟨s', e1, e2⟩ := hrest { l with functions := true } hl
            refine ⟨_, s', ?_, e2, ?_⟩
            · subst h3
              simp [initAll, hfn', initializeInterfaceList, hil, OK, NOT_SUPPORTED, e1]
            · subst h3
              simp [OK, NOT_SUPPORTED]
          · refine ⟨rv1, { s with lib := some { l with functions := true } }, ?_, ?_, ?_⟩
            · simp [initAll, hfn', initializeInterfaceList, hil, h1, h3]
            · simp [h1, hl]
            · simp [h1, h3]
    · refine ⟨rv0, { s with lib := some l }, ?_, ?_, ?_⟩
      · simp [initAll, hfn, hfl, h0]
      · simp [h0, hl]
      · simp [h0]

/-! ## C81: the list of slots -/

/-- **C81 fails.** Whenever `getSlotIdList` succeeds on an initialised object (memory being available), the list it returns is *empty*, whatever slots
the module has: `resize` to exactly the reserved capacity does nothing (C04). -/
theorem C81_slot_list_empty (can : Nat → Bool) (hcan : ∀ n, can n = true) (fuel : Nat) (l : Lib I F) (h : l.status = OK) (m : Slots)
    (h1 : m.rv1 = OK) (h2 : m.rv2 = OK) (hm : m.ids.length ≤ m.count) :
    ∃ v, getSlotIdList can (fuel + 1) m l = .ok (.result v) ∧ v.toList = .ok [] ∧
      -- the ids are behind the end of the list
      (∀ i (hi : i < m.ids.length), v.at? i = .ok m.ids[i]) ∧ v.cap = m.count := by
  have hf : getFunctionList l = .result () := by simp [getFunctionList, createExpected, h]
  have hc : getSlotIdCount m l = .result m.count := by simp [(C80_initialized_partial l h m).2, h1]
  have hr : (Vec.empty : Vec Nat).reserve can m.count =
      ⟨[] ++ (List.replicate m.ids.length .raw ++ List.replicate (m.count - m.ids.length) .raw), m.count, 0⟩ := by
    rw [List.nil_append, List.replicate_append_replicate, show m.ids.length + (m.count - m.ids.length) = m.count by omega]
    by_cases h0 : m.count = 0
    · simp [Vec.reserve, Vec.empty, h0]
    · have : 0 < m.count := by omega
      simp [Vec.reserve, Vec.empty, this, hcan]
  have hz : ((Vec.empty : Vec Nat).reserve can m.count).resize can (fuel + 1) m.count = .ok ((Vec.empty : Vec Nat).reserve can m.count) := by
    rw [hr, Vec.resize]
    by_cases h0 : 0 < m.count
    · simp [h0]
    · simp [h0]
  have hfill : fill ((Vec.empty : Vec Nat).reserve can m.count) m.ids =
      .ok ⟨m.ids.map .live ++ List.replicate (m.count - m.ids.length) .raw, m.count, 0⟩ := by
    rw [fill, hr]
    simp only
    rw [Cells.assignList_append true (by simp) (by simp) (by simp)]
    simp [Bind.bind, Res.bind]
  refine ⟨⟨m.ids.map .live ++ List.replicate (m.count - m.ids.length) .raw, m.count, 0⟩, ?_, ?_, ?_, rfl⟩
  · simp [getSlotIdList, hc, readSlots, hz, hf, h2, hfill, Vec.moveCtor]
  · simp [Vec.toList, Cells.getRange]
  · intro i hi
    have : (m.ids.map Cell.live ++ List.replicate (m.count - m.ids.length) .raw)[i]? = some (.live m.ids[i]) := by
      rw [List.getElem?_append_left (by simpa using hi)]
      simp [hi]
    simp [Vec.at?, Cells.get, this]

/-- **C81 fails.** For a module with at least one slot the list is not the module's. -/
theorem C81_slot_list_violated (can : Nat → Bool) (hcan : ∀ n, can n = true) (fuel : Nat) (l : Lib I F) (h : l.status = OK) (m : Slots)
    (h1 : m.rv1 = OK) (h2 : m.rv2 = OK) (hm : m.ids.length ≤ m.count) (hne : m.ids ≠ []) :
    ∃ v, getSlotIdList can (fuel + 1) m l = .ok (.result v) ∧ v.toList ≠ .ok m.ids := by
  obtain ⟨v, h3, h4, _⟩ := C81_slot_list_empty can hcan fuel l h m h1 h2 hm
  refine ⟨v, h3, ?_⟩
  rw [h4]
  intro e
  injection e with e
  exact hne e.symm

/-- **C81, what holds.** A module without slots gives the empty list; a module that fails gives nothing. -/
theorem C81_slot_list_partial (can : Nat → Bool) (hcan : ∀ n, can n = true) (fuel : Nat) (l : Lib I F) (h : l.status = OK) (m : Slots) :
    (m.rv1 ≠ OK → ∃ v, getSlotIdList can (fuel + 1) m l = .ok (.result v) ∧ v.toList = .ok []) ∧
    (m.rv1 = OK → m.rv2 ≠ OK → getSlotIdList can (fuel + 1) m l = .ok .nothing) ∧
    (m.rv1 = OK → m.rv2 = OK → m.count = 0 → m.ids = [] →
      ∃ v, getSlotIdList can (fuel + 1) m l = .ok (.result v) ∧ v.toList = .ok m.ids) := by
  have hf : getFunctionList l = .result () := by simp [getFunctionList, createExpected, h]
  have hc := (C80_initialized_partial l h m).2
  refine ⟨?_, ?_, ?_⟩
  · intro h1
    refine ⟨Vec.empty, ?_, rfl⟩
    simp [getSlotIdList, hc, h1, Vec.moveCtor, Vec.empty]
  · intro h1 h2
    have hz : ((Vec.empty : Vec Nat).reserve can m.count).resize can (fuel + 1) m.count = .ok ((Vec.empty : Vec Nat).reserve can m.count) := by
      rw [Vec.resize]
      by_cases h0 : 0 < m.count
      · simp [Vec.reserve, Vec.empty, h0, hcan]
      · simp [Vec.reserve, Vec.empty, h0]
    simp [getSlotIdList, hc, h1, readSlots, hz, hf, h2, Exp.assignError]
  · intro h1 h2 h3 h4
    obtain ⟨v, h5, h6, _⟩ := C81_slot_list_empty can hcan fuel l h m h1 h2 (by simp [h4])
    exact ⟨v, h5, by rw [h6, h4]⟩

/-! ## C82: `C_Initialize` and `C_Finalize` in pairs -/

namespace Pkcs11Spec

/-- **Specification.** No function of the module is called while it is not initialised. -/
def Clean (log : List Ev) : Prop := .finalizedUninitialized ∉ log ∧ .calledUninitialized ∉ log

end Pkcs11Spec

namespace Pkcs11

/-- Calls that keep the pairing: one successful initialisation, whose `C_GetInfo` works if `C_Initialize` does; no `finalize()` by hand; the module can
be finalised. -/
def careful (s : St I F) : Op I F → Prop
  | .start a => (∃ l, s.lib = some l ∧ l.status ≠ OK) ∧ (a.initRv = OK → a.info = OK) ∧
      ∀ rv1 c rv2 xs, a.interfaceList = some (rv1, c, rv2, xs) → xs.length ≤ c
  | .finalize _ => False
  | .getSlots => s.lib ≠ none
  | .getInterfaceList => s.lib ≠ none
  | .drop rv => s.lib ≠ none ∧ rv = OK

structure Inv (s : St I F) : Prop where
  clean : Pkcs11Spec.Clean s.log
  used : ∀ l, s.lib = some l → (l.status = OK ↔ s.modInit = true)
  gone : s.lib = none → s.modInit = false

theorem initializeRest_inv {a : Answers I F} {s : St I F} {l : Lib I F} (hl : l.status ≠ OK) (hm : s.modInit = false)
    (ha : a.initRv = OK → a.info = OK) (hc : Pkcs11Spec.Clean s.log) : Inv (initializeRest a s l).2 := by
  by_cases hi : a.initRv = OK
  · have : (initializeRest a s l).2 = { s with lib := some { l with status := OK, info := some a.infoValue }, modInit := true, log := .initialized :: s.log } := by
      simp [initializeRest, cInitialize, hm, hi, ha hi]
    rw [this]
    refine ⟨⟨?_, ?_⟩, ?_, ?_⟩
    · simpa using hc.1
    · simpa using hc.2
    · intro l' h; simp only [Option.some.injEq] at h; subst h; simp
    · intro h; simp at h
  · have : (initializeRest a s l).2 = { s with lib := some l } := by
      simp [initializeRest, cInitialize, hm, hi]
    rw [this]
    refine ⟨hc, ?_, by simp⟩
    intro l' h
    simp only [Option.some.injEq] at h
    subst h
    simp [hl, hm]

theorem ifaces_status {can : Nat → Bool} {a : Answers I F} {l l' : Lib I F} {rv : Rv}
    (h : initializeInterfaceList can a l = .ok (rv, l')) : l'.status = l.status := by
  simp only [initializeInterfaceList] at h
  split at h
  · cases h; rfl
  · split at h
    · cases h; rfl
    · split at h
      · cases h; rfl
      · split at h
        · cases h; rfl
        · split at h <;> cases h; rfl

theorem step_inv {can : Nat → Bool} {s s' : St I F} {o : Op I F} (h : Inv s) (hp : careful s o) (he : step can s o = .ok s') : Inv s' := by
  cases o with
  | start a =>
    obtain ⟨⟨l, hl, hs⟩, ha, _⟩ := hp
    have hm : s.modInit = false := by
      cases hmm : s.modInit with
      | false => rfl
      | true => exact absurd ((h.used l hl).mpr hmm) hs
    simp only [step, hl] at he
    have hlib : ∀ l' : Lib I F, l'.status ≠ OK → Inv { s with lib := some l' } := by
      intro l' hl'
      refine ⟨h.clean, ?_, by simp⟩
      intro x hx
      simp only [Option.some.injEq] at hx
      subst hx
      simp [hl', hm]
    have hfs : (initializeFunctionList a l).2.status = l.status := by
      simp only [initializeFunctionList]
      split
      · rfl
      · split <;> rfl
    cases hia : initAll can a s l with
    | ub => rw [hia] at he; cases he
    | loop => rw [hia] at he; cases he
    | ok p =>
      rw [hia] at he
      obtain ⟨rv, t⟩ := p
      injection he with he
      subst he
      simp only [initAll] at hia
      split at hia
      · injection hia with hia
        have := congrArg Prod.snd hia
        simp only at this
        rw [← this]
        exact hlib _ (by rw [hfs]; exact hs)
      · split at hia
        · rename_i rv1 l1 hil
          have hst : l1.status ≠ OK := by rw [ifaces_status hil, hfs]; exact hs
          split at hia
          · injection hia with hia
            have := congrArg Prod.snd hia
            simp only at this
            rw [← this]
            exact hlib _ hst
          · split at hia
            · injection hia with hia
              have := congrArg Prod.snd hia
              simp only at this
              rw [← this]
              exact initializeRest_inv hst hm ha h.clean
            · cases hia
        · cases hia
        · cases hia
  | finalize rv => exact hp.elim
  | getSlots =>
    obtain ⟨l, hl⟩ := Option.ne_none_iff_exists'.mp (show s.lib ≠ none from hp)
    simp only [step, hl] at he
    split at he
    · rename_i hf
      have : s.modInit = true := by
        refine (h.used l hl).mp (Classical.byContradiction fun hn => ?_)
        simp [getFunctionList, createExpected, hn, Exp.assignError] at hf
      simp only [this, if_true, Res.ok.injEq] at he
      exact he ▸ h
    · injection he with he; exact he ▸ h
  | getInterfaceList =>
    obtain ⟨l, hl⟩ := Option.ne_none_iff_exists'.mp (show s.lib ≠ none from hp)
    simp only [step, hl, Res.ok.injEq] at he
    subst he
    refine ⟨h.clean, ?_, by simp⟩
    intro l' hl'
    simp only [Option.some.injEq] at hl'
    subst hl'
    have : (getInterfaceList l).2.status = l.status := by
      simp only [getInterfaceList]; split <;> rfl
    rw [this]
    exact h.used l hl
  | drop rv =>
    obtain ⟨hne, hrv⟩ := hp
    obtain ⟨l, hl⟩ := Option.ne_none_iff_exists'.mp hne
    simp only [step, hl, Res.ok.injEq] at he
    subst he
    by_cases hs : l.status = OK
    · have hm := (h.used l hl).mp hs
      have : (finalize rv s l).2 = { s with modInit := false, log := .finalized true :: s.log } := by
        simp [finalize, getFunctionList, createExpected, hs, Exp.visit, cFinalize, hm, hrv]
      rw [this]
      exact ⟨⟨by simpa using h.clean.1, by simpa using h.clean.2⟩, by simp, by simp⟩
    · have hm : s.modInit = false := by
        cases hmm : s.modInit with
        | false => rfl
        | true => exact absurd ((h.used l hl).mpr hmm) hs
      have : (finalize rv s l).2 = s := by
        simp [finalize, getFunctionList, createExpected, hs, Exp.visit, Exp.assignError]
      rw [this]
      exact ⟨h.clean, by simp, by simpa using hm⟩

end Pkcs11

/-- **C82, what holds.** With careful calls: the module is initialised exactly while the object is usable, no function is called on an uninitialised module,
and after the object's destruction the module is not initialised. -/
theorem C82_pairing_partial {can : Nat → Bool} {s : Pkcs11.St I F} (h : Reach (Pkcs11.step can) Pkcs11.careful Pkcs11.init s) :
    Pkcs11Spec.Clean s.log ∧ (∀ l, s.lib = some l → (l.status = OK ↔ s.modInit = true)) ∧ (s.lib = none → s.modInit = false) := by
  have := h.inv (P := Pkcs11.Inv) ⟨⟨by simp [Pkcs11.init], by simp [Pkcs11.init]⟩, by
      intro l hl; simp only [Pkcs11.init, Option.some.injEq] at hl; subst hl; simp [OK, NOT_INITIALIZED, Pkcs11.init], by simp [Pkcs11.init]⟩
    (fun _ _ _ hi hp he => Pkcs11.step_inv hi hp he)
  exact ⟨this.clean, this.used, this.gone⟩

/-- **C82 fails.** `finalize()` does not change the status: after a successful one, the destructor (or a second `finalize()`) calls `C_Finalize` of a module that
is not initialised, and reading the slots calls into it. -/
theorem C82_finalize_twice {can : Nat → Bool} {s s₁ : Pkcs11.St I F} {l : Lib I F} (hl : s.lib = some l) (hs : l.status = OK)
    (hm : s.modInit = true) (he : Pkcs11.step can s (.finalize OK) = .ok s₁) (rv : Rv) :
    (∃ s₂, Pkcs11.step can s₁ (.drop rv) = .ok s₂ ∧ ¬ Pkcs11Spec.Clean s₂.log) ∧
    (∃ s₂, Pkcs11.step can s₁ .getSlots = .ok s₂ ∧ ¬ Pkcs11Spec.Clean s₂.log) := by
  have h1 : s₁ = { s with modInit := false, log := .finalized true :: s.log } := by
    simp only [step, hl, Res.ok.injEq] at he
    rw [← he]
    simp [finalize, getFunctionList, createExpected, hs, Exp.visit, cFinalize, hm]
  subst h1
  refine ⟨⟨_, by simp only [step, hl]; rfl, ?_⟩, ⟨_, by simp only [step, hl, getFunctionList, createExpected, hs, if_true]; rfl, ?_⟩⟩
  · intro hcl
    apply hcl.1
    simp [finalize, getFunctionList, createExpected, hs, Exp.visit, cFinalize]
  · intro hcl
    apply hcl.2
    simp

/-- **C82 fails.** If `C_GetInfo` fails after `C_Initialize` succeeded, the module stays initialised: no later `finalize()` and not the destructor calls
`C_Finalize`. -/
theorem C82_info_failure_leaks {can : Nat → Bool} {s s₁ : Pkcs11.St I F} {l : Lib I F} (hs : l.status ≠ OK)
    (hm : s.modInit = false) {a : Answers I F} {rv : Rv} (he : initAll can a s l = .ok (rv, s₁))
    (hinit : a.initRv = OK) (hinfo : a.info ≠ OK) (hreach : s₁.log = .initialized :: s.log)
    (fs : List Rv) (rv' : Rv) :
    ∃ s₂, runOps (Pkcs11.step can) s₁ (fs.map .finalize ++ [.drop rv']) = .ok s₂ ∧ s₂.modInit = true ∧ s₂.log = s₁.log ∧ s₂.lib = none := by
  have hfs : (initializeFunctionList a l).2.status = l.status := by
    simp only [initializeFunctionList]
    split
    · rfl
    · split <;> rfl
  have hne : ∀ x : Ev, ¬ (s.log = x :: s.log) := by
    intro x h
    have := congrArg List.length h
    simp at this
  have h1 : s₁.modInit = true ∧ ∃ l₁, s₁.lib = some l₁ ∧ l₁.status ≠ OK := by
    simp only [initAll] at he
    split at he
    · injection he with he
      have := congrArg Prod.snd he
      simp only at this
      subst this
      exact absurd hreach (hne _)
    · split at he
      · rename_i rv1 l1 hil
        split at he
        · injection he with he
          have := congrArg Prod.snd he
          simp only at this
          subst this
          exact absurd hreach (hne _)
        · split at he
          · injection he with he
            have := congrArg Prod.snd he
            simp only at this
            subst this
            refine ⟨?_, l1, ?_, by rw [ifaces_status hil, hfs]; exact hs⟩
            · simp [initializeRest, cInitialize, hm, hinit, hinfo]
            · simp [initializeRest, cInitialize, hm, hinit, hinfo]
          · cases he
      · cases he
      · cases he
  obtain ⟨h2, l₁, h3, h4⟩ := h1
  have hfin : ∀ rv, (finalize rv s₁ l₁).2 = s₁ := by
    intro rv
    simp [finalize, getFunctionList, createExpected, h4, Exp.visit, Exp.assignError]
  refine ⟨{ s₁ with lib := none }, ?_, h2, rfl, rfl⟩
  induction fs with
  | nil => simp [runOps, step, h3, hfin]
  | cons f fs ih =>
    have : Pkcs11.step can s₁ (.finalize f) = .ok s₁ := by simp [step, h3, hfin]
    simp only [List.map_cons, List.cons_append, runOps, this]
    exact ih

/-! ## C83: the interface list -/

/-- **C83 fails.** Asking for the interface list destroys it: the pointer handed out refers to a destroyed list (reading it is undefined), and asking again
gives nothing. -/
theorem C83_interface_list_violated (l : Lib I F) (v : Vec I) (h : l.ifaces = .result v) :
    (getInterfaceList l).1 = .result true ∧ readInterfaces (getInterfaceList l).2 = .ub ∧
    (getInterfaceList (getInterfaceList l).2).1 = .nothing := by
  simp [getInterfaceList, h, readInterfaces, Exp.assignError]

/-- **C83 fails.** Even before that, the list kept after a successful initialisation is empty whatever interfaces the module reported (they lie behind its
end). -/
theorem C83_interface_list_empty (can : Nat → Bool) (hcan : ∀ n, can n = true) {a : Answers I F} {l : Lib I F} {c : Nat} {xs : List I}
    (ha : a.interfaceList = some (OK, c, OK, xs)) (hc : 0 < c) (hx : xs.length ≤ c) :
    ∃ l' v, initializeInterfaceList can a l = .ok (OK, l') ∧ l'.ifaces = .result v ∧ v.toList = .ok [] ∧
      ∀ i (hi : i < xs.length), v.at? i = .ok xs[i] := by
  have hr : (Vec.empty : Vec I).reserve can c = ⟨[] ++ (List.replicate xs.length .raw ++ List.replicate (c - xs.length) .raw), c, 0⟩ := by
    rw [List.nil_append, List.replicate_append_replicate, show xs.length + (c - xs.length) = c by omega]
    simp [Vec.reserve, Vec.empty, hc, hcan]
  have hfill : fill ((Vec.empty : Vec I).reserve can c) xs = .ok ⟨xs.map .live ++ List.replicate (c - xs.length) .raw, c, 0⟩ := by
    rw [fill, hr]
    simp only
    rw [Cells.assignList_append true (by simp) (by simp) (by simp)]
    simp [Bind.bind, Res.bind]
  have hc0 : c ≠ 0 := by omega
  refine ⟨{ l with ifaces := .result ⟨xs.map .live ++ List.replicate (c - xs.length) .raw, c, 0⟩ },
    ⟨xs.map .live ++ List.replicate (c - xs.length) .raw, c, 0⟩, ?_, rfl, ?_, ?_⟩
  · simp [initializeInterfaceList, ha, hc0, hfill, Vec.moveCtor]
  · simp [Vec.toList, Cells.getRange]
  · intro i hi
    have : (xs.map Cell.live ++ List.replicate (c - xs.length) .raw)[i]? = some (.live xs[i]) := by
      rw [List.getElem?_append_left (by simpa using hi)]
      simp [hi]
    simp [Vec.at?, Cells.get, this]

/-! ## Concrete cases -/

/-- a module with two interfaces and info 7 -/
def goodModule : Answers Nat Nat := ⟨some 0, some (0, 2, 0, [10, 11]), 0, 0, 7⟩

def lib0 : Lib Nat Nat := ⟨NOT_INITIALIZED, false, .nothing, none⟩
def lib1 : Lib Nat Nat := ⟨OK, true, .result ⟨[.live 10, .live 11], 2, 0⟩, some 7⟩

example : (match initAll (fun _ => true) goodModule init lib0 with | .ok (rv, s) => some (rv, s.modInit) | _ => none) = some (0, true) := by decide
example : getSlotIdCount ⟨0, 3, 0, [5, 6, 9]⟩ lib1 = .result 3 ∧ getSlotIdCount ⟨0, 3, 0, [5, 6, 9]⟩ lib0 = .result 0 := by decide
example : getSlotIdList (fun _ => true) 1 ⟨0, 3, 0, [5, 6, 9]⟩ lib1 = .ok (.result ⟨[.live 5, .live 6, .live 9], 3, 0⟩) := by decide
example : (match runOps (Pkcs11.step fun _ => true) (init : Pkcs11.St Nat Nat) [.start goodModule, .getSlots, .drop 0] with
    | .ok s => some (s.modInit, s.log) | _ => none) = some (false, [.finalized true, .initialized]) := by decide
example : (match runOps (Pkcs11.step fun _ => true) (init : Pkcs11.St Nat Nat) [.start goodModule, .finalize 0, .drop 0] with
    | .ok s => some (s.modInit, s.log) | _ => none) = some (false, [.finalizedUninitialized, .finalized true, .initialized]) := by decide
example : (match runOps (Pkcs11.step fun _ => true) (init : Pkcs11.St Nat Nat) [.start { goodModule with info := 5 }, .finalize 0, .drop 0] with
    | .ok s => some (s.modInit, s.log) | _ => none) = some (true, [.initialized]) := by decide
example : ∃ s : Pkcs11.St Nat Nat, Reach (Pkcs11.step fun _ => true) Pkcs11.careful Pkcs11.init s ∧ s.modInit = true ∧ s.lib ≠ none := by
  refine ⟨_, .step (o := .start goodModule) .start ⟨⟨lib0, rfl, by decide⟩, fun _ => rfl, ?_⟩ rfl, rfl, by decide⟩
  intro rv1 c rv2 xs h
  cases h
  decide

/-- **C83, without a list.** An object that has no interface list answers nothing and has none afterwards; nothing else changes in either case. -/
theorem C83_no_list (l : Lib I F) : ((∀ v, l.ifaces ≠ .result v) → (getInterfaceList l).1 = .nothing) ∧
    (getInterfaceList l).2.ifaces = .nothing ∧ (getInterfaceList l).2.status = l.status ∧
    (getInterfaceList l).2.functions = l.functions ∧ (getInterfaceList l).2.info = l.info := by
  obtain ⟨st, fn, ifs, info⟩ := l
  refine ⟨fun h => ?_, ?_⟩
  · cases ifs with
    | result v => exact absurd rfl (h v)
    | nothing => rfl
    | error e => rfl
  · cases ifs <;> simp [getInterfaceList]

/-- **C82, a refused finalization.** If the module refuses `C_Finalize`, `finalize()` returns its code and the module stays initialised; so it does, for
ever, if that happens in the destructor. -/
theorem C82_refused_finalize {can : Nat → Bool} {s : Pkcs11.St I F} {l : Lib I F} (hl : s.lib = some l) (hs : l.status = OK)
    (hm : s.modInit = true) {rv : Rv} (hrv : rv ≠ OK) :
    (finalize rv s l).1 = rv ∧ Pkcs11.step can s (.finalize rv) = .ok { s with log := .finalized false :: s.log } ∧
    Pkcs11.step can s (.drop rv) = .ok { s with lib := none, log := .finalized false :: s.log } := by
  have : finalize rv s l = (rv, { s with log := .finalized false :: s.log }) := by
    simp [finalize, getFunctionList, createExpected, hs, Exp.visit, cFinalize, hm, hrv]
  refine ⟨by rw [this], ?_, ?_⟩
  · simp only [step, hl, this]
  · simp only [step, hl, this]

/-- **C80, failed initialisation.** Once the function list was read, it is kept whatever happens later; status and information change only if all
steps succeed. -/
theorem C80_failed_initialize {can : Nat → Bool} {a : Answers I F} {s s' : Pkcs11.St I F} {l : Lib I F} {rv : Rv}
    (hf : a.functionList = some OK) (h : initAll can a s l = .ok (rv, s')) :
    ∃ l', s'.lib = some l' ∧ l'.functions = true ∧ (rv ≠ OK → l'.info = l.info ∧ l'.status = l.status) := by
  have h0 : initializeFunctionList a l = (OK, { l with functions := true }) := by simp [initializeFunctionList, hf]
  have key : ∀ {r l1}, initializeInterfaceList can a { l with functions := true } = .ok (r, l1) →
      l1.functions = true ∧ l1.info = l.info ∧ l1.status = l.status := by
    intro r l1 h1
    simp only [initializeInterfaceList] at h1
    split at h1
    · cases h1; exact ⟨rfl, rfl, rfl⟩
    · split at h1
      · cases h1; exact ⟨rfl, rfl, rfl⟩
      · split at h1
        · cases h1; exact ⟨rfl, rfl, rfl⟩
        · split at h1
          · cases h1; exact ⟨rfl, rfl, rfl⟩
          · split at h1
            · cases h1; exact ⟨rfl, rfl, rfl⟩
            · cases h1
            · cases h1
  simp only [initAll, h0] at h
  rw [if_neg (by simp)] at h
  split at h
  · rename_i r l1 h1
    obtain ⟨k1, k2, k3⟩ := key h1
    split at h
    · cases h; exact ⟨l1, rfl, k1, fun _ => ⟨k2, k3⟩⟩
    · simp only [Res.ok.injEq, initializeRest] at h
      split at h
      · rename_i hne
        have : s' = (cInitialize { s with lib := some l1 } a.initRv).2 := by rw [h]
        subst this
        refine ⟨l1, ?_, k1, fun _ => ⟨k2, k3⟩⟩
        simp only [cInitialize]
        split
        · rfl
        · split <;> rfl
      · split at h
        · cases h
          refine ⟨l1, ?_, k1, fun _ => ⟨k2, k3⟩⟩
          simp only [cInitialize]
          split
          · rfl
          · split <;> rfl
        · cases h
          exact ⟨_, rfl, k1, fun h => absurd rfl h⟩
  · cases h
  · cases h

/-- A module whose `C_GetInfo` fails. -/
example : ∃ s', initAll (I := Nat) (F := Nat) (fun _ => true) ⟨some OK, none, OK, 7, 0⟩ Pkcs11.init ⟨NOT_INITIALIZED, false, .nothing, none⟩ =
    .ok (7, s') ∧ s'.modInit = true := ⟨_, rfl, rfl⟩

/-- **C82, a module that is initialised already** (by another object or by this one).  `initialize` then fails, neither initialises nor finalises the module,
and leaves the object's status alone; an object that was not usable is not usable afterwards, and its `finalize` and its destructor let the module be: it
stays initialised for the one that initialised it. -/
theorem C82_second_initialize {can : Nat → Bool} {a : Answers I F} {s s' : Pkcs11.St I F} {l : Lib I F} {rv : Rv} (hm : s.modInit = true)
    (hf : a.functionList = some OK) (h : initAll can a s l = .ok (rv, s')) :
    rv ≠ OK ∧ s'.modInit = true ∧ s'.log = s.log ∧
    ∃ l', s'.lib = some l' ∧ l'.status = l.status ∧ l'.info = l.info ∧
      (l.status ≠ OK → ∀ rv', Pkcs11.step can s' (.finalize rv') = .ok s' ∧ Pkcs11.step can s' (.drop rv') = .ok { s' with lib := none }) := by
  have h0 : initializeFunctionList a l = (OK, { l with functions := true }) := by simp [initializeFunctionList, hf]
  have main : rv ≠ OK ∧ s'.modInit = true ∧ s'.log = s.log := by
    simp only [initAll, h0] at h
    rw [if_neg (by simp)] at h
    split at h
    · split at h
      · rename_i hne
        cases h
        exact ⟨hne.1, hm, rfl⟩
      · split at h
        · simp only [Res.ok.injEq, initializeRest, cInitialize, hm, if_true] at h
          rw [if_pos (by decide)] at h
          cases h
          exact ⟨by decide, rfl, rfl⟩
        · cases h
    · cases h
    · cases h
  obtain ⟨l', hl, _, hk⟩ := C80_failed_initialize hf h
  refine ⟨main.1, main.2.1, main.2.2, l', hl, (hk main.1).2, (hk main.1).1, fun hs rv' => ?_⟩
  have hs' : l'.status ≠ OK := by rw [(hk main.1).2]; exact hs
  have hfin : finalize rv' s' l' = (OK, s') := by simp [finalize, getFunctionList, createExpected, hs', Exp.visit, Exp.assignError]
  constructor
  · simp only [step, hl, hfin]
  · simp only [step, hl, hfin]

/-- A fresh object for a module another object has initialised. -/
example : ∃ s', initAll (I := Nat) (F := Nat) (fun _ => true) ⟨some OK, none, OK, OK, 0⟩ { Pkcs11.init with modInit := true }
    ⟨NOT_INITIALIZED, false, .nothing, none⟩ = .ok (ALREADY_INITIALIZED, s') := ⟨_, rfl⟩

/-! The theorems at the module and the libraries above. -/

namespace Pkcs11

def exOpen : St Nat Nat := { lib := some lib1, modInit := true, log := [.initialized] }

end Pkcs11

example := C80_uninitialized_violated lib0 (by decide) (fun _ => true) 2 ⟨0, 3, 0, [5, 6, 9]⟩ 0 Pkcs11.init
example := C80_initialized_partial lib1 rfl ⟨0, 3, 0, [5, 6, 9]⟩
example := C80_initialize_result (fun _ => true) (fun _ => rfl) goodModule Pkcs11.init lib0 (by decide) rfl (by rintro _ _ _ _ ⟨⟩; decide)
example := C81_slot_list_empty (fun _ => true) (fun _ => rfl) 2 lib1 rfl ⟨0, 3, 0, [5, 6, 9]⟩ rfl rfl (by decide)
example := C81_slot_list_violated (fun _ => true) (fun _ => rfl) 2 lib1 rfl ⟨0, 3, 0, [5, 6, 9]⟩ rfl rfl (by decide) (by decide)
example := C81_slot_list_partial (fun _ => true) (fun _ => rfl) 2 lib1 rfl ⟨0, 3, 0, [5, 6, 9]⟩
example := C82_pairing_partial (can := fun _ => true) (I := Nat) (F := Nat) (.step (o := .start goodModule) .start
  ⟨⟨lib0, rfl, by decide⟩, fun _ => rfl, by rintro _ _ _ _ ⟨⟩; decide⟩ rfl)
example := C82_finalize_twice (can := fun _ => true) (s := exOpen) rfl rfl rfl rfl 0
example := C82_info_failure_leaks (can := fun _ => true) (s := Pkcs11.init) (l := lib0) (by decide) rfl (a := { goodModule with info := 5 }) rfl rfl (by decide) rfl [0, 6] 0
example := C82_refused_finalize (can := fun _ => true) (s := exOpen) rfl rfl rfl (rv := 5) (by decide)
example := C83_interface_list_violated lib1 _ rfl
example := C83_interface_list_empty (fun _ => true) (fun _ => rfl) (a := goodModule) (l := lib0) rfl (by decide) (by decide)

end Flame
