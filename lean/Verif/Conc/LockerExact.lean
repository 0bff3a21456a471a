import Verif.Conc.LockerProps

/-!
# C40, exactly: which calls on a `UniqueLocker` go wrong
-/

namespace Flame.UniqueLockerSpec
open Flame.Conc.UniqueLocker Flame.Own

/-- Specification: a locker that says it holds a lock holds it, every lock held through a locker is held by the one that says so, and every release so far was made by the
locker that held the lock. -/
def Good (s : St) : Prop :=
  (∀ i l, s.held l = some (.locker i) → s.objs i = some ⟨some l, true⟩) ∧
  (∀ i d, s.objs i = some ⟨d, true⟩ → ∃ l, d = some l ∧ s.held l = some (.locker i)) ∧
  (∀ r ∈ s.log, r.2.2 = .locker r.1)

theorem Good.inv {s : St} (h : Good s) : UniqueLockerLemmas.Inv s := ⟨h.1, h.2.1, h.2.2⟩

theorem good {s : St} (h : UniqueLockerLemmas.Inv s) : Good s := ⟨h.holds, h.flag, h.log⟩

theorem unlock_not_held {s : St} (h : Good s) {i : Nat} {d : Option Nat} (hi : s.objs i = some ⟨d, false⟩) (hu : unlock s i ≠ .ub) :
    ∃ s', unlock s i = .ok s' ∧ ¬ Good s' := by
  cases d with
  | none => exact absurd (by simp [unlock, hi]) hu
  | some l =>
    cases hl : s.held l with
    | none => exact absurd (by simp [unlock, hi, hl]) hu
    | some o =>
      refine ⟨_, by simp only [unlock, hi, hl]; rfl, fun hg => ?_⟩
      have h1 := hg.2.2 (i, l, o) (by simp)
      simp only at h1
      rw [h1] at hl
      have h2 := h.1 i l hl
      rw [hi] at h2
      simp at h2

theorem moveAssign_not_good {s : St} {i j k l : Nat} {u v : Ob} (hi : s.objs i = some u) (hj : s.objs j = some v) (hk : s.held l = some (.locker k))
    (hkk : k = i ∨ k = j) : ∃ s', moveAssign s i j = .ok s' ∧ ¬ Good s' := by
  refine ⟨_, by simp only [moveAssign, hi, hj]; rfl, fun hg => ?_⟩
  have h1 : handOver s.held i j l = some (.locker i) := by
    simp only [handOver, hk]
    rcases hkk with rfl | rfl
    · split <;> rfl
    · simp
  have h2 := hg.1 i l h1
  simp only [upd_self] at h2
  cases hx : (upd (upd s.objs i (some { data := v.data, locked := v.locked })) j
      ((upd s.objs i (some { data := v.data, locked := v.locked }) j).map fun z => { z with data := none }) i) with
  | none => rw [hx] at h2; cases h2
  | some z => rw [hx] at h2; simp at h2

theorem map_locked {o : Option Ob} (hn : o ≠ none) (h : o.map (·.locked) ≠ some false) : ∃ d, o = some ⟨d, true⟩ := by
  cases o with
  | none => exact absurd rfl hn
  | some x =>
    obtain ⟨d, b⟩ := x
    cases b with
    | false => exact absurd rfl h
    | true => exact ⟨d, rfl⟩

theorem careful_of_good {s : St} (h : Good s) {o : Op} (hp : pre s o) (hu : step s o ≠ .ub) (hg : ∀ s', step s o = .ok s' → Good s') : careful s o := by
  cases o with
  | make i l => trivial
  | makeLock i l => trivial
  | makeTryLock i l => trivial
  | makeUnlock i l =>
    have hn : s.objs i = none := hp
    have h' : Good { s with objs := upd s.objs i (some ⟨some l, false⟩) } :=
      good (UniqueLockerLemmas.inv_set h.inv (by simp [hn]) (by simp))
    obtain ⟨s', e, hb⟩ := unlock_not_held h' (i := i) (d := some l) (by simp) hu
    exact hb (hg s' e)
  | lock i =>
    intro hd
    apply hu
    cases e : s.objs i with
    | none => simp [step, lock, e]
    | some x => rw [e] at hd; simp only [Option.bind_some] at hd; simp [step, lock, e, hd]
  | tryLock i =>
    intro hd
    apply hu
    cases e : s.objs i with
    | none => simp [step, tryLock, e]
    | some x =>
      obtain ⟨d, b⟩ := x
      rw [e] at hd
      simp only [Option.bind_some] at hd
      subst hd
      cases b with
      | false => simp [step, tryLock, e]
      | true => obtain ⟨l, h1, -⟩ := h.2.1 i _ e; cases h1
  | unlock i =>
    cases e : s.objs i with
    | none => exact absurd e hp
    | some x =>
      obtain ⟨d, b⟩ := x
      cases b with
      | true => simp [careful, e]
      | false =>
        obtain ⟨s', e', hb⟩ := unlock_not_held h e hu
        exact absurd (hg s' e') hb
  | moveCtor i j =>
    apply Classical.byContradiction
    intro hc
    obtain ⟨d, e⟩ := map_locked hp.2 hc
    obtain ⟨l, rfl, hl⟩ := h.2.1 j d e
    have hij : j ≠ i := fun ee => hp.2 (ee ▸ hp.1)
    obtain ⟨s', e', hb⟩ := moveAssign_not_good (s := { s with objs := upd s.objs i (some ⟨none, false⟩) }) (i := i) (j := j) (by simp; rfl)
      (by simp only [upd_ne _ _ hij]; exact e) hl (.inr rfl)
    exact hb (hg s' e')
  | moveAssign i j =>
    apply Classical.byContradiction
    intro hc
    obtain ⟨u, hu⟩ := Option.ne_none_iff_exists'.mp hp.1
    obtain ⟨v, hv⟩ := Option.ne_none_iff_exists'.mp hp.2
    have hk : ∃ k l, s.held l = some (.locker k) ∧ (k = i ∨ k = j) := by
      by_cases h1 : (s.objs i).map (·.locked) = some false
      · obtain ⟨d, e⟩ := map_locked hp.2 (fun h2 => hc ⟨h1, h2⟩)
        obtain ⟨l, -, hl⟩ := h.2.1 j d e
        exact ⟨j, l, hl, .inr rfl⟩
      · obtain ⟨d, e⟩ := map_locked hp.1 h1
        obtain ⟨l, -, hl⟩ := h.2.1 i d e
        exact ⟨i, l, hl, .inl rfl⟩
    obtain ⟨k, l, hl, hkk⟩ := hk
    obtain ⟨s', e', hb⟩ := moveAssign_not_good hu hv hl hkk
    exact hb (hg s' e')
  | copyCtor i j =>
    apply Classical.byContradiction
    intro hc
    obtain ⟨d, e⟩ := map_locked hp.2 hc
    obtain ⟨l, rfl, hl⟩ := h.2.1 j d e
    have hij : j ≠ i := fun ee => hp.2 (ee ▸ hp.1)
    obtain ⟨m, h1, h2⟩ := (hg _ rfl).2.1 i (some l) (by simp [e])
    simp only [Option.some.injEq] at h1
    subst h1
    simp only [hl, Option.some.injEq, Owner.locker.injEq] at h2
    exact hij h2
  | copyAssign i j =>
    by_cases hij : i = j
    · exact .inl hij
    refine .inr (Classical.byContradiction fun hc => ?_)
    have hg' := hg _ rfl
    by_cases h1 : (s.objs j).map (·.locked) = some false
    · obtain ⟨d, e⟩ := map_locked hp.1 (fun h2 => hc ⟨h2, h1⟩)
      obtain ⟨l, rfl, hl⟩ := h.2.1 i d e
      have h3 := hg'.1 i l hl
      simp only [upd_self] at h3
      rw [h3] at h1
      simp at h1
    · obtain ⟨d, e⟩ := map_locked hp.2 h1
      obtain ⟨l, rfl, hl⟩ := h.2.1 j d e
      obtain ⟨m, h1, h2⟩ := hg'.2.1 i (some l) (by simp [e])
      simp only [Option.some.injEq] at h1
      subst h1
      simp only [hl, Option.some.injEq, Owner.locker.injEq] at h2
      exact hij h2.symm
  | destroy i => trivial
  | outsideLock l => trivial
  | outsideUnlock l => trivial

end Flame.UniqueLockerSpec

namespace Flame
open Conc Own

/-- **C40, exactly.**  In every state where each locker's flag is right (in particular after every history of calls that kept it so), a call that the language allows keeps it right,
releases only what the caller's locker holds and is defined (though it may wait) — exactly if: it is not a construction with `UNLOCK`; `lock` and `tryLock` are called on a locker that was not moved from;
`unlock` is called on a locker that holds; and a locker that holds is neither moved, copied (except to itself) nor assigned to. -/
theorem C40_step_exact {s : UniqueLocker.St} (h : UniqueLockerSpec.Good s) {o : UniqueLocker.Op} (hp : UniqueLocker.pre s o) :
    (UniqueLocker.step s o ≠ .ub ∧ ∀ s', UniqueLocker.step s o = .ok s' → UniqueLockerSpec.Good s') ↔
      match o with
      | .makeUnlock _ _ => False
      | .lock i | .tryLock i => ∃ l b, s.objs i = some ⟨some l, b⟩
      | .unlock i => ∃ l, s.objs i = some ⟨some l, true⟩
      | .moveCtor _ j | .copyCtor _ j => ∀ d, s.objs j ≠ some ⟨d, true⟩
      | .moveAssign i j => ∀ d, s.objs i ≠ some ⟨d, true⟩ ∧ s.objs j ≠ some ⟨d, true⟩
      | .copyAssign i j => i = j ∨ ∀ d, s.objs i ≠ some ⟨d, true⟩ ∧ s.objs j ≠ some ⟨d, true⟩
      | _ => True := by
  have hx : (UniqueLocker.step s o ≠ .ub ∧ ∀ s', UniqueLocker.step s o = .ok s' → UniqueLockerSpec.Good s') ↔ UniqueLocker.careful s o := by
    constructor
    · rintro ⟨h1, h2⟩
      exact UniqueLockerSpec.careful_of_good h hp h1 h2
    · intro hc
      rcases UniqueLockerLemmas.inv_step h.inv hp hc with e | ⟨s', e, hi⟩
      · rw [e]; exact ⟨by simp, by simp⟩
      · rw [e]; exact ⟨by simp, fun s'' e' => by cases e'; exact UniqueLockerSpec.good hi⟩
  rw [hx]
  have free : ∀ i, s.objs i ≠ none → ((s.objs i).map (·.locked) = some false ↔ ∀ d, s.objs i ≠ some ⟨d, true⟩) := by
    intro i hi
    cases e : s.objs i with
    | none => exact absurd e hi
    | some x => obtain ⟨d, b⟩ := x; cases b <;> simp
  cases o with
  | make i l => exact Iff.rfl
  | makeLock i l => exact Iff.rfl
  | makeTryLock i l => exact Iff.rfl
  | makeUnlock i l => exact Iff.rfl
  | lock i =>
    cases e : s.objs i with
    | none => simp [UniqueLocker.careful, e]
    | some x => obtain ⟨d, b⟩ := x; cases d <;> simp [UniqueLocker.careful, e]
  | tryLock i =>
    cases e : s.objs i with
    | none => simp [UniqueLocker.careful, e]
    | some x => obtain ⟨d, b⟩ := x; cases d <;> simp [UniqueLocker.careful, e]
  | unlock i =>
    cases e : s.objs i with
    | none => simp [UniqueLocker.careful, e]
    | some x =>
      obtain ⟨d, b⟩ := x
      cases b with
      | false => simp [UniqueLocker.careful, e]
      | true => obtain ⟨l, rfl, -⟩ := h.2.1 i d e; simp [UniqueLocker.careful, e]
  | moveCtor i j => exact free j hp.2
  | copyCtor i j => exact free j hp.2
  | moveAssign i j =>
    refine (and_congr (free i hp.1) (free j hp.2)).trans ⟨fun hh d => ⟨hh.1 d, hh.2 d⟩, fun hh => ⟨fun d => (hh d).1, fun d => (hh d).2⟩⟩
  | copyAssign i j =>
    refine or_congr Iff.rfl ((and_congr (free i hp.1) (free j hp.2)).trans ⟨fun hh d => ⟨hh.1 d, hh.2 d⟩, fun hh => ⟨fun d => (hh d).1, fun d => (hh d).2⟩⟩)
  | destroy i => exact Iff.rfl
  | outsideLock l => exact Iff.rfl
  | outsideUnlock l => exact Iff.rfl

/-- The initial state, and every state reached by such calls, is one of those `C40_step_exact` is about. -/
theorem C40_reach_good {s : UniqueLocker.St}
    (h : Reach UniqueLocker.step (fun s o => UniqueLocker.pre s o ∧ UniqueLocker.careful s o) UniqueLocker.init s) : UniqueLockerSpec.Good s :=
  UniqueLockerSpec.good (UniqueLockerLemmas.reach_inv h)

-- a state with a holder: copying it to itself is harmless, copying it to another locker is not
example : ∃ s, UniqueLockerSpec.Good s ∧ (s.objs 0, s.objs 1, s.held 7) = (some ⟨some 7, true⟩, some ⟨some 7, false⟩, some (.locker 0)) := by
  obtain ⟨s, hs, e⟩ := Reach.witness (step := UniqueLocker.step) (pre := fun s o => UniqueLocker.pre s o ∧ UniqueLocker.careful s o) (s₀ := UniqueLocker.init)
    [.makeLock 0 7, .make 1 7, .copyAssign 0 0] (fun s => (s.objs 0, s.objs 1, s.held 7)) (some ⟨some 7, true⟩, some ⟨some 7, false⟩, some (.locker 0)) (by decide +kernel)
  exact ⟨s, C40_reach_good hs, e⟩

namespace Flame
open Conc Own
example := C40_step_exact (C40_reach_good (.visit ([.makeLock 0 7, .make 1 7] : List UniqueLocker.Op) (by decide +kernel))) (o := .unlock 0) (by decide +kernel)
end Flame

end Flame
