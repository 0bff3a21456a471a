import Verif.Crypto.Slot

/-! # C90, C91: slots of a PKCS#11 library -/

namespace Flame
open Pkcs11
variable {I F T : Type}

namespace Pkcs11
/-- The slot of the last event a list of successful and failed waits reported. -/
def lastEvent (as : List WaitAnswer) : Option Nat := ((as.filter fun a => a.rv = OK).getLast?).map (·.slot)
end Pkcs11

theorem Pkcs11.functionList_ok {l : Lib I F} (h : l.status = OK) : getFunctionList l = .result () := by
  simp [getFunctionList, createExpected, h]

theorem Pkcs11.functionList_not {l : Lib I F} (h : l.status ≠ OK) : getFunctionList l = .nothing := by
  simp [getFunctionList, createExpected, h, Exp.assignError]

theorem Pkcs11.wait_ok {l : Lib I F} (h : l.status = OK) (a : WaitAnswer) (s : Slot) :
    s.waitForSlotEvent a l = (a.rv, if a.rv = OK then ⟨a.slot⟩ else s) := by
  simp [Slot.waitForSlotEvent, functionList_ok h, Exp.visit]

theorem Pkcs11.wait_not {l : Lib I F} (h : l.status ≠ OK) (a : WaitAnswer) (s : Slot) :
    s.waitForSlotEvent a l = (OK, s) := by
  simp [Slot.waitForSlotEvent, functionList_not h, Exp.visit]

/-! ## C90: a slot object keeps denoting its slot -/

/-- **C90, exact.** After any history of waits on an initialised library the object denotes the slot of the last reported event; only if no
wait succeeded is it still the slot it was created for. -/
theorem C90_identity_exact (l : Lib I F) (h : l.status = OK) (id : Nat) (as : List WaitAnswer) :
    ((Slot.create id).waits l as).2.getSlotId = (lastEvent as).getD id := by
  suffices H : ∀ (as : List WaitAnswer) (s : Slot), (s.waits l as).2.id = (lastEvent as).getD s.id from H as ⟨id⟩
  intro as
  induction as with
  | nil => intro s; rfl
  | cons a as ih =>
    intro s
    simp only [Slot.waits, wait_ok h]
    rw [ih]
    by_cases ha : a.rv = OK
    · rw [if_pos ha]
      simp only [lastEvent, List.filter_cons, ha, decide_true, if_true]
      rw [List.getLast?_cons]
      cases hf : (List.filter (fun a => decide (a.rv = OK)) as).getLast? <;> simp
    · rw [if_neg ha]
      simp [lastEvent, List.filter_cons, ha]

/-- **C90 fails.** One successful wait with an event in another slot makes the object another slot: its identifier and the information it gives
are the other slot's. -/
theorem C90_identity_violated (l : Lib I F) (h : l.status = OK) (id other : Nat) (hne : other ≠ id) (info : Nat → Rv × T) :
    let s' := ((Slot.create id).waitForSlotEvent ⟨OK, other⟩ l).2
    s'.getSlotId = other ∧ s'.getSlotId ≠ id ∧ s'.getSlotInfo info l = (Slot.create other).getSlotInfo info l := by
  simp [wait_ok h, Slot.create, Slot.getSlotId, hne]

/-- **C90, what holds.** While every successful wait was about the object's own slot, the identifier and the information are the object's own;
and asking for information changes nothing. -/
theorem C90_identity_partial (l : Lib I F) (id : Nat) (as : List WaitAnswer)
    (hown : l.status = OK → ∀ a ∈ as, a.rv = OK → a.slot = id) (info : Nat → Rv × T) :
    let s' := ((Slot.create id).waits l as).2
    s'.getSlotId = id ∧
    s'.getSlotInfo info l = if l.status = OK ∧ (info id).1 = OK then .result (info id).2 else .nothing := by
  have hid : ((Slot.create id).waits l as).2 = ⟨id⟩ := by
    show ((⟨id⟩ : Slot).waits l as).2 = ⟨id⟩
    induction as with
    | nil => rfl
    | cons a as ih =>
      have ih := ih fun hl b hb => hown hl b (List.mem_cons_of_mem _ hb)
      simp only [Slot.waits]
      by_cases h : l.status = OK
      · rw [wait_ok h]
        by_cases ha : a.rv = OK
        · simp only [ha, if_true, hown h a (List.mem_cons_self ..) ha]; exact ih
        · simp only [ha, if_false]; exact ih
      · rw [wait_not h]; exact ih
  rw [hid]
  refine ⟨rfl, ?_⟩
  by_cases h : l.status = OK
  · by_cases hi : (info id).1 = OK <;> simp [Slot.getSlotInfo, functionList_ok h, Exp.visit, h, hi, Exp.assignError]
  · simp [Slot.getSlotInfo, functionList_not h, Exp.visit, h]

example : ((Slot.create 3).waits (⟨OK, true, .nothing, none⟩ : Lib Unit Unit) [⟨OK, 5⟩, ⟨7, 9⟩]) = ([0, 7], ⟨5⟩) := by decide
example : lastEvent [⟨OK, 5⟩, ⟨7, 9⟩] = some 5 := by decide
example : ((Slot.create 3).getSlotInfo (fun i => (OK, i + 100)) (⟨OK, true, .nothing, none⟩ : Lib Unit Unit)) = .result 103 := by decide

/-! ## C91: slot functions report failure -/

/-- **C91 fails.** On a library that is not initialised, waiting for an event returns *OK* at once, without the module being asked, and the information
calls neither handler. -/
theorem C91_uninitialized_violated (l : Lib I F) (h : l.status ≠ OK) (s : Slot) (a : WaitAnswer) (info : Nat → Rv × T) :
    s.waitForSlotEvent a l = (OK, s) ∧ s.getSlotInfo info l = .nothing := by
  simp [wait_not h, Slot.getSlotInfo, functionList_not h, Exp.visit]

/-- **C91 fails.** The information of a slot never reports an error, whatever the module answers and whatever the library's state. -/
theorem C91_info_never_an_error (l : Lib I F) (s : Slot) (info : Nat → Rv × T) (e : Rv) :
    s.getSlotInfo info l ≠ .error e := by
  by_cases h : l.status = OK
  · simp only [Slot.getSlotInfo, functionList_ok h, Exp.visit, Exp.assignError]
    split <;> simp
  · simp [Slot.getSlotInfo, functionList_not h, Exp.visit]

/-- **C91, what holds.** On an initialised library a history of waits returns exactly the module's codes, in order; and information is handed out
exactly if the module succeeded, and is the module's. -/
theorem C91_initialized_partial (l : Lib I F) (h : l.status = OK) (s : Slot) (as : List WaitAnswer) (info : Nat → Rv × T) :
    (s.waits l as).1 = as.map (·.rv) ∧ (∀ t, s.getSlotInfo info l = .result t ↔ info s.id = (OK, t)) := by
  constructor
  · induction as generalizing s with
    | nil => rfl
    | cons a as ih => simp only [Slot.waits, wait_ok h, List.map_cons, ih]
  · intro t
    cases hi : info s.id with
    | mk rv v =>
      by_cases hr : rv = OK <;>
        simp [Slot.getSlotInfo, functionList_ok h, Exp.visit, hi, hr, Exp.assignError]

example : ((Slot.create 3).waitForSlotEvent ⟨7, 9⟩ (⟨NOT_INITIALIZED, false, .nothing, none⟩ : Lib Unit Unit)) = (OK, ⟨3⟩) := by decide
example : ((Slot.create 3).getSlotInfo (fun i => (5, i)) (⟨OK, true, .nothing, none⟩ : Lib Unit Unit)) = .nothing := by decide

namespace Flame.Pkcs11
example := C90_identity_exact (⟨OK, true, .nothing, none⟩ : Lib Unit Unit) rfl 3 [⟨OK, 5⟩, ⟨7, 9⟩]
example := C90_identity_violated (⟨OK, true, .nothing, none⟩ : Lib Unit Unit) rfl 3 5 (by decide) (fun i => (OK, i + 100))
example := C91_uninitialized_violated (⟨NOT_INITIALIZED, false, .nothing, none⟩ : Lib Unit Unit) (by decide) ⟨3⟩ ⟨7, 9⟩ (fun i => (5, i))
end Flame.Pkcs11

end Flame
