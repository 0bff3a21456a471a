import Verif.Crypto.Section

/-!
# C176: sections guarded with the library's callbacks

Specification: two threads are never in the section together, and a thread can enter whenever nobody is inside.
-/

namespace Flame.Pkcs11.Section
open Flame.Own

/-- What holds with real callbacks whose native calls succeed: the mutex exists and is locked exactly while a thread is inside. -/
structure Inv (s : St) : Prop where
  handle : s.handle = some 0
  live : s.lib.live 0 = true
  one : ∀ t u, s.inside t = true → s.inside u = true → t = u
  held : s.lib.held 0 = true ↔ ∃ t, s.inside t = true

theorem inv_start : Inv (start .real) := by
  refine ⟨rfl, rfl, ?_, ?_⟩
  · intro t u h
    cases h
  · constructor
    · intro h
      cases h
    · rintro ⟨t, h⟩
      cases h

theorem inv_step {s s' : St} {o : Op} (h : Inv s) (hc : can .real false s o) (hs : step .real s o = .ok s') : Inv s' := by
  cases o with
  | enter t ok =>
    obtain ⟨h1, h2, h3⟩ := hc
    have hok : ok = true := by cases ok with
      | true => rfl
      | false => exact absurd (h2 rfl) (by simp)
    subst hok
    have hf := h3 rfl rfl 0 h.handle
    have hno : ∀ u, s.inside u = false := fun u => by
      cases e : s.inside u with
      | false => rfl
      | true => rw [h.held.mpr ⟨u, e⟩] at hf; cases hf
    simp only [step, cb, MutexCb.call, h.handle, h.live, if_true, MutexCb.OK, Res.ok.injEq] at hs
    subst hs
    refine ⟨rfl, h.live, ?_, by simp only [MutexCb.set, if_true, true_iff]; exact ⟨t, upd_self _ _ _⟩⟩
    have at_ : ∀ u, upd s.inside t true u = true → u = t := fun u hu => by
      by_cases e : u = t
      · exact e
      · rw [upd_ne _ _ e, hno u] at hu; cases hu
    intro u v hu hv
    rw [at_ u hu, at_ v hv]
  | leave t ok =>
    obtain ⟨h1, h2⟩ := hc
    have hok : ok = true := by cases ok with
      | true => rfl
      | false => exact absurd (h2 rfl) (by simp)
    subst hok
    simp only [step, cb, MutexCb.call, h.handle, h.live, if_true, Res.ok.injEq] at hs
    subst hs
    have at_ : ∀ u, upd s.inside t false u = false := fun u => by
      by_cases e : u = t
      · rw [e, upd_self]
      · rw [upd_ne _ _ e]
        cases e' : s.inside u with
        | false => rfl
        | true => exact absurd (h.one u t e' h1) e
    refine ⟨rfl, h.live, ?_, ?_⟩
    · intro u v hu
      simp only [at_] at hu
      cases hu
    · simp [MutexCb.set, at_]

theorem reach_inv {s : St} (h : Reach (step .real) (can .real false) (start .real) s) : Inv s :=
  h.inv inv_start fun _ _ _ hi hc hs => inv_step hi hc hs

/-- With the stubs nothing ever changes but who is inside. -/
theorem stub_enters (b : Bool) (l : List Nat) (hl : l.Nodup) :
    ∃ s, Reach (step .stub) (can .stub b) (start .stub) s ∧ ∀ t, s.inside t = true ↔ t ∈ l := by
  induction l with
  | nil => exact ⟨_, .start, fun t => by simp [start, cb]⟩
  | cons a l ih =>
    obtain ⟨ha, hl⟩ := List.nodup_cons.mp hl
    obtain ⟨s, hr, hi⟩ := ih hl
    have hout : s.inside a = false := by
      cases e : s.inside a with
      | false => rfl
      | true => exact absurd ((hi a).mp e) ha
    refine ⟨⟨s.lib, s.handle, upd s.inside a true⟩, .step hr (o := .enter a true) ⟨hout, by simp, by simp⟩ rfl, fun t => ?_⟩
    by_cases e : t = a
    · simp [e]
    · simp [upd_ne _ _ e, e, hi]

end Flame.Pkcs11.Section

namespace Flame
open Own Pkcs11

/-- **C176, the part that holds.** With the real callbacks and native calls that succeed, over every history of any number of threads: two threads are never inside
together; a thread outside can enter exactly when nobody is inside; every step is defined. -/
theorem C176_real_partial {s : Section.St} (h : Reach (Section.step .real) (Section.can .real false) (Section.start .real) s) :
    (∀ t u, s.inside t = true → s.inside u = true → t = u) ∧
    (∀ t, (∃ ok, Section.can .real false s (.enter t ok)) ↔ ∀ u, s.inside u = false) ∧
    (∀ o, Section.can .real false s o → ∃ s', Section.step .real s o = .ok s') ∧
    (∀ t s' ok, Section.can .real false s (.enter t ok) → Section.step .real s (.enter t ok) = .ok s' → ∀ u, s'.inside u = true ↔ u = t) := by
  have hi := Section.reach_inv h
  have enter : ∀ t, (∃ ok, Section.can .real false s (.enter t ok)) ↔ ∀ u, s.inside u = false := by
    intro t
    constructor
    · rintro ⟨ok, h1, h2, h3⟩ u
      cases ok with
      | false => exact absurd (h2 rfl) (by simp)
      | true =>
        cases e : s.inside u with
        | false => rfl
        | true => have := h3 rfl rfl 0 hi.handle; rw [hi.held.mpr ⟨u, e⟩] at this; cases this
    · intro hu
      refine ⟨true, hu t, by simp, fun _ _ x hx => ?_⟩
      rw [hi.handle] at hx
      cases hx
      cases e : s.lib.held 0 with
      | false => rfl
      | true => obtain ⟨u, hu'⟩ := hi.held.mp e; rw [hu u] at hu'; cases hu'
  refine ⟨hi.one, enter, ?_, ?_⟩
  · intro o _
    cases o with
    | enter t ok => exact ⟨_, by simp only [Section.step, Section.cb, MutexCb.call, hi.handle, hi.live, if_true]; rfl⟩
    | leave t ok => exact ⟨_, by simp only [Section.step, Section.cb, MutexCb.call, hi.handle, hi.live, if_true]; rfl⟩
  · intro t s' ok hc hs u
    have hno := (enter t).mp ⟨ok, hc⟩
    simp only [Section.step, Section.cb, MutexCb.call, hi.handle, hi.live, if_true, MutexCb.OK, Res.ok.injEq] at hs
    subst hs
    by_cases e : u = t
    · simp [e]
    · simp [upd_ne _ _ e, e, hno u]

instance (k : Section.Impl) (b : Bool) (s : Section.St) (o : Section.Op) : Decidable (Section.can k b s o) := by
  cases o with
  | enter t ok =>
    cases hh : s.handle with
    | none => exact decidable_of_iff (s.inside t = false ∧ (ok = false → b = true)) (by simp [Section.can, hh])
    | some x => exact decidable_of_iff (s.inside t = false ∧ (ok = false → b = true) ∧ (k = .real → ok = true → s.lib.held x = false)) (by simp [Section.can, hh])
  | leave t ok => exact inferInstanceAs (Decidable (_ ∧ _))

/-- A history of two threads taking turns. -/
example : ∃ s, Reach (Section.step .real) (Section.can .real false) (Section.start .real) s ∧ (s.inside 0, s.inside 1, s.lib.held 0) = (false, true, true) :=
  Reach.witness (step := Section.step .real) (pre := Section.can .real false) (s₀ := Section.start .real) [.enter 0 true, .leave 0 true, .enter 1 true] (fun s => (s.inside 0, s.inside 1, s.lib.held 0)) _ (by decide +kernel)

/-- **C176 fails** in programs linked with the stubs: whatever threads there are, there is a history — without any native failure — after which exactly they are in the section
together. -/
theorem C176_stub_violated (l : List Nat) (hl : l.Nodup) :
    ∃ s, Reach (Section.step .stub) (Section.can .stub false) (Section.start .stub) s ∧ ∀ t, s.inside t = true ↔ t ∈ l := Section.stub_enters false l hl

example : [3, 1, 2].Nodup := by decide

/-- **C176 fails** with the real callbacks when a native `lock` fails: in every state a thread whose native call fails joins whoever is inside. -/
theorem C176_failed_lock_violated {s : Section.St} (h : Reach (Section.step .real) (Section.can .real false) (Section.start .real) s) {t u : Nat}
    (ht : s.inside t = true) (hu : s.inside u = false) :
    Section.can .real true s (.enter u false) ∧ ∃ s', Section.step .real s (.enter u false) = .ok s' ∧ s'.inside t = true ∧ s'.inside u = true := by
  have hi := Section.reach_inv h
  have htu : t ≠ u := by rintro rfl; rw [ht] at hu; cases hu
  refine ⟨⟨hu, by simp, by simp⟩, ?_⟩
  refine ⟨⟨{ s.lib with log := .used 0 :: s.lib.log }, some 0, upd s.inside u true⟩, ?_, by simp [upd_ne _ _ htu, ht], by simp⟩
  simp [Section.step, Section.cb, MutexCb.call, hi.handle, hi.live, MutexCb.OK]

/-- **C176 fails** with the real callbacks when a native `unlock` fails: the thread has left, was told `OK`, and whatever the threads do while native calls succeed, nobody enters
again. -/
theorem C176_failed_unlock_violated {s : Section.St} (h : Reach (Section.step .real) (Section.can .real false) (Section.start .real) s) {t : Nat}
    (ht : s.inside t = true) :
    ∃ s', Section.step .real s (.leave t false) = .ok s' ∧ (∀ u, s'.inside u = false) ∧
      ∀ s'', Reach (Section.step .real) (Section.can .real false) s' s'' → ∀ u, s''.inside u = false ∧ ∀ ok, ¬ Section.can .real false s'' (.enter u ok) := by
  have hi := Section.reach_inv h
  have hout : ∀ u, upd s.inside t false u = false := fun u => by
    by_cases e : u = t
    · rw [e, upd_self]
    · rw [upd_ne _ _ e]
      cases e' : s.inside u with
      | false => rfl
      | true => exact absurd (hi.one u t e' ht) e
  refine ⟨⟨{ s.lib with log := .used 0 :: s.lib.log }, some 0, upd s.inside t false⟩,
    by simp [Section.step, Section.cb, MutexCb.call, hi.handle, hi.live], hout, fun s'' hr => ?_⟩
  have key : s''.handle = some 0 ∧ s''.lib.held 0 = true ∧ ∀ u, s''.inside u = false := by
    refine hr.inv (P := fun s => s.handle = some 0 ∧ s.lib.held 0 = true ∧ ∀ u, s.inside u = false) ⟨rfl, hi.held.mpr ⟨t, ht⟩, hout⟩ ?_
    rintro a o b ⟨a1, a2, a3⟩ hc -
    cases o with
    | enter u ok =>
      obtain ⟨-, c2, c3⟩ := hc
      cases ok with
      | false => exact absurd (c2 rfl) (by simp)
      | true => rw [c3 rfl rfl 0 a1] at a2; cases a2
    | leave u ok => have := hc.1; rw [a3 u] at this; cases this
  intro u
  refine ⟨key.2.2 u, fun ok hc => ?_⟩
  obtain ⟨-, c2, c3⟩ := hc
  cases ok with
  | false => exact absurd (c2 rfl) (by simp)
  | true => have := c3 rfl rfl 0 key.1; rw [key.2.1] at this; cases this

/-- A state in which one thread is inside and another is not. -/
example : ∃ s, Reach (Section.step .real) (Section.can .real false) (Section.start .real) s ∧ (s.inside 0, s.inside 1) = (true, false) :=
  Reach.witness (step := Section.step .real) (pre := Section.can .real false) (s₀ := Section.start .real) [.enter 0 true] (fun s => (s.inside 0, s.inside 1)) _ (by decide +kernel)

/-- C176: the stub of `CreateMutex` says `OK` but gives the module no mutex. -/
theorem C176_stub_no_mutex {s : Section.St} (h : Reach (Section.step .stub) (Section.can .stub false) (Section.start .stub) s) :
    s.handle = none ∧ s.lib.log = [] := by
  refine h.inv (P := fun s => s.handle = none ∧ s.lib.log = []) ⟨rfl, rfl⟩ ?_
  rintro a o b ⟨h1, h2⟩ - hs
  cases o <;> (simp only [Section.step, Section.cb, Res.ok.injEq] at hs; subst hs; exact ⟨h1, h2⟩)

namespace Flame
open Own Pkcs11
example := C176_real_partial (.visit ([.enter 0 true, .leave 0 true, .enter 1 true] : List Section.Op) (by decide +kernel))
example := C176_failed_lock_violated (.visit ([.enter 0 true] : List Section.Op) (by decide +kernel)) (t := 0) (u := 1) (by decide +kernel) (by decide +kernel)
example := C176_stub_no_mutex (.visit ([.enter 0 true, .enter 1 true] : List Section.Op) (by decide +kernel))
end Flame

end Flame
