import Verif.Crypto.MutexCb

/-! # C93: the mutex callbacks handed to PKCS#11 modules -/

namespace Flame
open Pkcs11.MutexCb
open Flame.Own (Reach Ev Live Proper ReleasedOnce)

namespace Pkcs11.MutexCb

/-- The module uses null or handles of live mutexes. -/
def careful (s : St) : Op → Prop
  | .create _ _ => True
  | .destroy h => ∀ x, h = some x → Live x s.log
  | .lock h _ => ∀ x, h = some x → Live x s.log
  | .unlock h _ => ∀ x, h = some x → Live x s.log

/-- Liveness in the model is liveness in the log, numbers are fresh, the log is correct. -/
structure Inv (s : St) : Prop where
  live : ∀ h, s.live h = true ↔ Live h s.log
  fresh : ∀ h, .made h ∈ s.log ↔ h < s.next
  closed : ∀ h, .closed h ∈ s.log → h < s.next
  proper : Proper s.log

theorem Inv.initial : Inv init := ⟨by simp [init, Live], by simp [init], by simp [init], trivial⟩

theorem live_cons_used {l : List Ev} {h k : Nat} : Live h (.used k :: l) ↔ Live h l := by simp [Live]

theorem Inv.used {s : St} (hs : Inv s) {h : Nat} (hl : Live h s.log) (held : Nat → Bool) : Inv { s with held := held, log := .used h :: s.log } :=
  ⟨fun k => by simpa [live_cons_used] using hs.live k, fun k => by simpa using hs.fresh k, fun k => by simpa using hs.closed k,
    ⟨hl, hs.proper⟩⟩

theorem Inv.step {s s' : St} {o : Op} (hs : Inv s) (h : step s o = .ok s') : Inv s' := by
  unfold MutexCb.step at h
  split at h <;> try (cases h; done)
  rename_i out t hc
  injection h with h
  subst h
  cases o with
  | create out mem =>
    cases out with
    | false => simp only [call] at hc; injection hc with hc; injection hc with _ hc; subst hc; exact hs
    | true =>
      cases mem with
      | false => simp only [call] at hc; injection hc with hc; injection hc with _ hc; subst hc; exact hs
      | true =>
        simp only [call] at hc; injection hc with hc; injection hc with _ hc; subst hc
        have hn : Ev.made s.next ∉ s.log := by rw [hs.fresh]; omega
        have hc : Ev.closed s.next ∉ s.log := fun hh => by have := hs.closed _ hh; omega
        refine ⟨?_, ?_, ?_, ⟨hn, hc, hs.proper⟩⟩
        · intro k
          by_cases hk : k = s.next
          · subst hk; simp [MutexCb.set, Live, hc]
          · have := hs.live k
            simp [MutexCb.set, hk, Live] at this ⊢
            exact this
        · intro k
          have := hs.fresh k
          simp only [List.mem_cons, Ev.made.injEq, this]; omega
        · intro k hk
          have := hs.closed k (by simpa using hk)
          show k < s.next + 1
          omega
  | destroy h =>
    cases h with
    | none => simp only [call] at hc; injection hc with hc; injection hc with _ hc; subst hc; exact hs
    | some h =>
      simp only [call] at hc
      split at hc <;> try (cases hc; done)
      rename_i hl
      injection hc with hc; injection hc with _ hc; subst hc
      have hl' := (hs.live h).mp hl
      refine ⟨?_, ?_, ?_, ⟨hl', hs.proper⟩⟩
      · intro k
        by_cases hk : k = h
        · subst hk; simp [MutexCb.set, Live]
        · have := hs.live k
          simp [MutexCb.set, hk, Live] at this ⊢
          exact this
      · intro k; simpa using hs.fresh k
      · intro k hk
        rcases List.mem_cons.mp hk with hk | hk
        · injection hk with hk; subst hk; exact (hs.fresh k).mp hl'.1
        · exact hs.closed k hk
  | lock h ok =>
    cases h with
    | none => simp only [call] at hc; injection hc with hc; injection hc with _ hc; subst hc; exact hs
    | some h =>
      simp only [call] at hc
      split at hc <;> try (cases hc; done)
      rename_i hl
      injection hc with hc; injection hc with _ hc; subst hc
      exact hs.used ((hs.live h).mp hl) _
  | unlock h ok =>
    cases h with
    | none => simp only [call] at hc; injection hc with hc; injection hc with _ hc; subst hc; exact hs
    | some h =>
      simp only [call] at hc
      split at hc <;> try (cases hc; done)
      rename_i hl
      injection hc with hc; injection hc with _ hc; subst hc
      exact hs.used ((hs.live h).mp hl) _

theorem Inv.reach {s : St} {pre : St → Op → Prop} (h : Reach MutexCb.step pre init s) : Inv s :=
  Reach.inv (P := Inv) Inv.initial (fun _ _ _ hs _ h => hs.step h) h

end Pkcs11.MutexCb

/-- **C93, handles.** Over every history in which the module uses null or live handles: no callback is undefined, the log of creations, uses and
destructions is correct (nothing used or destroyed twice or after its end), every creation for which there is memory succeeds and hands out a handle never seen before, of an unlocked mutex, and
once no handle is live every mutex was destroyed exactly once. -/
theorem C93_handles_partial {s : Pkcs11.MutexCb.St} (h : Reach step careful init s) :
    Proper s.log ∧
    (∀ o, careful s o → ∃ out s', call s o = .ok (out, s')) ∧
    (∀ s' x, call s (.create true true) = .ok (⟨0, some (some x)⟩, s') →
      Ev.made x ∉ s.log ∧ Live x s'.log ∧ s'.held x = false ∧ ∀ y, y ≠ x → s'.held y = s.held y) ∧
    (∃ s' x, call s (.create true true) = .ok (⟨0, some (some x)⟩, s')) ∧
    ((∀ x, ¬ Live x s.log) → ReleasedOnce s.log) := by
  have hi := Inv.reach h
  refine ⟨hi.proper, ?_, ?_, ⟨_, _, rfl⟩, ?_⟩
  · intro o ho
    cases o with
    | create out mem => cases out <;> cases mem <;> exact ⟨_, _, rfl⟩
    | destroy h =>
      cases h with
      | none => exact ⟨_, _, rfl⟩
      | some x => exact ⟨_, _, by simp only [call, (hi.live x).mpr (ho x rfl), if_true]; rfl⟩
    | lock h ok =>
      cases h with
      | none => exact ⟨_, _, rfl⟩
      | some x => exact ⟨_, _, by simp only [call, (hi.live x).mpr (ho x rfl), if_true]; rfl⟩
    | unlock h ok =>
      cases h with
      | none => exact ⟨_, _, rfl⟩
      | some x => exact ⟨_, _, by simp only [call, (hi.live x).mpr (ho x rfl), if_true]; rfl⟩
  · intro s' x hc
    simp only [call] at hc
    injection hc with hc
    injection hc with h1 h2
    injection h1 with _ h1
    injection h1 with h1
    injection h1 with h1
    subst h1; subst h2
    have hn : Ev.made s.next ∉ s.log := by rw [hi.fresh]; omega
    have hcl : Ev.closed s.next ∉ s.log := fun hh => by have := hi.closed _ hh; omega
    exact ⟨hn, by simp [Live, hcl], by simp [Pkcs11.MutexCb.set], fun y hy => by simp [Pkcs11.MutexCb.set, hy]⟩
  · intro hno x hx
    have hle := hi.proper.closed_le_one x
    by_cases hc : Ev.closed x ∈ s.log
    · have := List.count_pos_iff.mpr hc
      omega
    · exact absurd ⟨hx, hc⟩ (hno x)

/-- **C93, refusals.** A null pointer is refused with ARGUMENTS_BAD (7) by every callback and nothing happens; without memory creation returns
HOST_MEMORY (2) and the module gets a null handle. -/
theorem C93_refused (s : Pkcs11.MutexCb.St) (b : Bool) :
    call s (.create false b) = .ok (⟨7, none⟩, s) ∧ call s (.destroy none) = .ok (⟨7, none⟩, s) ∧
    call s (.lock none b) = .ok (⟨7, none⟩, s) ∧ call s (.unlock none b) = .ok (⟨7, none⟩, s) ∧
    call s (.create true false) = .ok (⟨2, some none⟩, s) := by
  cases b <;> exact ⟨rfl, rfl, rfl, rfl, rfl⟩

/-- **C93, locking.** With native success, locking and unlocking a live mutex do what they say. -/
theorem C93_lock_exact {s : Pkcs11.MutexCb.St} (h : Reach step careful init s) (x : Nat) (hx : Live x s.log) :
    (∃ s', call s (.lock (some x) true) = .ok (⟨0, none⟩, s') ∧ s'.held x = true ∧ ∀ y, y ≠ x → s'.held y = s.held y) ∧
    (∃ s', call s (.unlock (some x) true) = .ok (⟨0, none⟩, s') ∧ s'.held x = false ∧ ∀ y, y ≠ x → s'.held y = s.held y) := by
  have hl := ((Inv.reach h).live x).mpr hx
  constructor
  · refine ⟨{ s with held := Pkcs11.MutexCb.set s.held x true, log := .used x :: s.log }, by simp [call, hl, OK], by simp [Pkcs11.MutexCb.set], ?_⟩
    intro y hy; simp [Pkcs11.MutexCb.set, hy]
  · refine ⟨{ s with held := Pkcs11.MutexCb.set s.held x false, log := .used x :: s.log }, by simp [call, hl, OK], by simp [Pkcs11.MutexCb.set], ?_⟩
    intro y hy; simp [Pkcs11.MutexCb.set, hy]

/-- **C93 fails.** A native failure to lock or unlock is reported as OK, though no mutex changed: the module believes it holds the lock. -/
theorem C93_lock_failure_hidden {s : Pkcs11.MutexCb.St} (h : Reach step careful init s) (x : Nat) (hx : Live x s.log) :
    (∃ s', call s (.lock (some x) false) = .ok (⟨0, none⟩, s') ∧ s'.held = s.held) ∧
    (∃ s', call s (.unlock (some x) false) = .ok (⟨0, none⟩, s') ∧ s'.held = s.held) := by
  have hl := ((Inv.reach h).live x).mpr hx
  exact ⟨⟨{ s with log := .used x :: s.log }, by simp [call, hl, OK], rfl⟩, ⟨{ s with log := .used x :: s.log }, by simp [call, hl, OK], rfl⟩⟩

/-- **C93, the rest of the domain.** A handle that is not live is undefined behaviour, in every reachable state. -/
theorem C93_dead_handle_ub {s : Pkcs11.MutexCb.St} {pre : Pkcs11.MutexCb.St → Op → Prop} (h : Reach step pre init s) (x : Nat) (hx : ¬ Live x s.log) (ok : Bool) :
    call s (.destroy (some x)) = .ub ∧ call s (.lock (some x) ok) = .ub ∧ call s (.unlock (some x) ok) = .ub := by
  have hl : s.live x = false := by
    cases hh : s.live x with
    | false => rfl
    | true => exact absurd (((Inv.reach h).live x).mp hh) hx
  simp [call, hl]

instance Pkcs11.MutexCb.carefulDec (s : Pkcs11.MutexCb.St) (o : Op) : Decidable (careful s o) := by
  cases o with
  | create _ _ => exact .isTrue trivial
  | destroy h => cases h with
    | none => exact .isTrue (by intro x hx; cases hx)
    | some y => exact decidable_of_iff (Live y s.log) ⟨fun h x hx => by injection hx with hx; subst hx; exact h, fun h => h y rfl⟩
  | lock h _ => cases h with
    | none => exact .isTrue (by intro x hx; cases hx)
    | some y => exact decidable_of_iff (Live y s.log) ⟨fun h x hx => by injection hx with hx; subst hx; exact h, fun h => h y rfl⟩
  | unlock h _ => cases h with
    | none => exact .isTrue (by intro x hx; cases hx)
    | some y => exact decidable_of_iff (Live y s.log) ⟨fun h x hx => by injection hx with hx; subst hx; exact h, fun h => h y rfl⟩

example : ∃ s, Reach step careful init s ∧ (s.log, s.held 1) =
    ([.closed 0, .used 1, .used 0, .made 1, .made 0], true) :=
  Reach.witness (step := step) (pre := careful) (s₀ := init) [.create true true, .create true false, .create true true, .lock (some 0) true,
    .lock none true, .lock (some 1) true, .destroy (some 0)] (fun s => (s.log, s.held 1)) _ (by decide)

namespace Flame
open Pkcs11.MutexCb
open Flame.Own (Reach Ev Live Proper ReleasedOnce visit)
private abbrev cbOps : List Pkcs11.MutexCb.Op := [.create true true, .create true false, .create true true, .lock (some 0) true]
example := C93_handles_partial (.visit cbOps (by decide +kernel))
example := C93_lock_exact (.visit cbOps (by decide +kernel)) 1 (by decide +kernel)
example := C93_lock_failure_hidden (.visit cbOps (by decide +kernel)) 1 (by decide +kernel)
end Flame

end Flame
