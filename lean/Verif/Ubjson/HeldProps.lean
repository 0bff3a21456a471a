import Verif.Ubjson.Held

/-!
# C175: UBJSON values in allocated memory

Specification: a holder is a variable with a value of its own.
-/

namespace Flame.Ubjson.Held
open Own

variable {α : Type}

/-- Specification: what each holder should contain; `none`: nothing. -/
def ideal (h : List (Option α)) : Op α → List (Option α)
  | .default => h ++ [none]
  | .empty => h ++ [none]
  | .make mem a => h ++ [if mem then some a else none]
  | .copy j => h ++ [h[j]?.getD none]
  | .move j => h.set j none ++ [h[j]?.getD none]
  | .copyAssign i j => h.set i (h[j]?.getD none)
  | .moveAssign i j => (h.set i (h[j]?.getD none)).set j none
  | .assignValue i a => h.set i (some a)
  | .write i a => h.set i (some a)
  | .drop i => h.set i none

theorem set_same {β : Type} {l : List β} {j : Nat} {a : β} (h : l[j]? = some a) : l.set j a = l := by
  apply List.ext_getElem?
  intro k
  by_cases e : k = j
  · subst e; rw [List.getElem?_set_self (List.getElem?_eq_some_iff.mp h).1, h]
  · rw [List.getElem?_set_ne (fun e' => e e'.symm)]

/-- The invariant of programs without copies. -/
structure Lone (s : St α) (h : List (Option α)) : Prop where
  len : h.length = s.sh.vars.length
  agree : ∀ (i : Nat) (a : α), h[i]? = some (some a) ↔ ∃ r, s.sh.vars[i]? = some (Shared.Slot.ptr r) ∧ s.val r = some a
  owned : ∀ (i r : Nat), s.sh.vars[i]? = some (Shared.Slot.ptr r) → s.sh.cnt r = 0 ∧ r < s.sh.next ∧ Ev.made r ∈ s.sh.log ∧ (s.val r).isSome = true
  apart : ∀ (i j r : Nat), s.sh.vars[i]? = some (Shared.Slot.ptr r) → s.sh.vars[j]? = some (Shared.Slot.ptr r) → i = j
  open_ : ∀ r, Ev.closed r ∉ s.sh.log
  noindet : ∀ i : Nat, s.sh.vars[i]? ≠ some Shared.Slot.indet

theorem Lone.live {s : St α} {h} (H : Lone s h) {i r : Nat} (hi : s.sh.vars[i]? = some (.ptr r)) : Live r s.sh.log :=
  ⟨(H.owned i r hi).2.2.1, H.open_ r⟩

theorem Lone.start : Lone (Held.start : St α) [] :=
  ⟨rfl, by simp [Held.start, Shared.init], by simp [Held.start, Shared.init], by simp [Held.start, Shared.init], by simp [Held.start, Shared.init],
    by simp [Held.start, Shared.init]⟩

/-- Reading is what the specification says. -/
theorem Lone.read {s : St α} {h} (H : Lone s h) {i : Nat} {a : α} (hi : h[i]? = some (some a)) : Held.read s i = .ok a := by
  obtain ⟨r, h1, h2⟩ := (H.agree i a).mp hi
  simp [Held.read, h1, H.live h1, h2]

/-- `clean` of a variable never destroys, and only counts. -/
theorem Lone.clean {s : St α} {h} (H : Lone s h) {i : Nat} (hi : Shared.Has s.sh i) :
    ∃ sh, Shared.cleanVar s.sh i = .ok sh ∧ sh.vars = s.sh.vars ∧ sh.next = s.sh.next ∧ sh.log = s.sh.log ∧
      ∀ r, s.sh.vars[i]? ≠ some (.ptr r) → sh.cnt r = s.sh.cnt r := by
  obtain ⟨p, hp, hg⟩ := hi.get
  cases p with
  | gone => exact absurd rfl hg
  | indet => exact absurd hp (H.noindet i)
  | null => exact ⟨s.sh, by simp [Shared.cleanVar, hp], rfl, rfl, rfl, fun _ _ => rfl⟩
  | ptr r =>
    have hc := (H.owned i r hp).1
    have hM := Shared.M_gt
    have hm : (s.sh.cnt r + (Shared.M - 1)) % Shared.M ≠ 0 := by rw [hc, Nat.zero_add, Nat.mod_eq_of_lt (by omega)]; omega
    refine ⟨{ s.sh with cnt := upd s.sh.cnt r ((s.sh.cnt r + (Shared.M - 1)) % Shared.M) }, by simp [Shared.cleanVar, hp, H.live hp, hm], rfl, rfl, rfl, ?_⟩
    intro q hq
    exact upd_ne _ _ fun e => hq (by rw [e, hp])

theorem Lone.null {s : St α} {h} (H : Lone s h) : Lone { s with sh := { s.sh with vars := s.sh.vars ++ [.null] } } (h ++ [none]) := by
  refine ⟨by simp [H.len], ?_, ?_, ?_, H.open_, ?_⟩
  · intro i b
    rcases Nat.lt_trichotomy i h.length with hl | hl | hl
    · rw [List.getElem?_append_left hl, List.getElem?_append_left (by rw [← H.len]; exact hl)]; exact H.agree i b
    · subst hl
      rw [H.len]
      simp [← H.len]
    · rw [List.getElem?_eq_none (by simp; omega), List.getElem?_eq_none (by have := H.len; simp; omega)]; simp
  · intro i r hi
    rcases Nat.lt_or_ge i s.sh.vars.length with hl | hl
    · exact H.owned i r (by simpa [List.getElem?_append_left hl] using hi)
    · simp only [List.getElem?_append_right hl] at hi
      cases hk : i - s.sh.vars.length <;> simp [hk] at hi
  · intro i j r hi hj
    rcases Nat.lt_or_ge i s.sh.vars.length with hl | hl
    · rcases Nat.lt_or_ge j s.sh.vars.length with hl' | hl'
      · exact H.apart i j r (by simpa [List.getElem?_append_left hl] using hi) (by simpa [List.getElem?_append_left hl'] using hj)
      · simp only [List.getElem?_append_right hl'] at hj
        cases hk : j - s.sh.vars.length <;> simp [hk] at hj
    · simp only [List.getElem?_append_right hl] at hi
      cases hk : i - s.sh.vars.length <;> simp [hk] at hi
  · intro i
    rcases Nat.lt_or_ge i s.sh.vars.length with hl | hl
    · simpa [List.getElem?_append_left hl] using H.noindet i
    · simp only [List.getElem?_append_right hl]
      cases hk : i - s.sh.vars.length <;> simp

theorem lone_step {s s' : St α} {h} (H : Lone s h) {o : Op α} (hp : lone s o) (hs : step s o = .ok s') : Lone s' (ideal h o) := by
  cases o with
  | default => exact absurd hp id
  | empty =>
    simp only [step, onShared, Shared.step, Bool.false_eq_true, if_false, Res.ok.injEq] at hs
    subst hs
    exact H.null
  | copy j => exact absurd hp id
  | copyAssign i j => exact absurd hp id
  | assignValue i a => exact absurd hp id
  | make mem a =>
    cases mem with
    | false =>
      simp only [step, Shared.step, Bool.false_eq_true, if_false, Res.ok.injEq] at hs
      subst hs
      simp only [ideal, Bool.false_eq_true, if_false]
      exact H.null
    | true =>
      simp only [step, Shared.step, if_true, Res.ok.injEq] at hs
      subst hs
      simp only [ideal, if_true]
      have old : ∀ {i r : Nat}, s.sh.vars[i]? = some (Shared.Slot.ptr r) → r ≠ s.sh.next := fun hi => by have := (H.owned _ _ hi).2.1; omega
      have at_ : ∀ {i q : Nat}, (s.sh.vars ++ [Shared.Slot.ptr s.sh.next])[i]? = some (Shared.Slot.ptr q) →
          s.sh.vars[i]? = some (.ptr q) ∧ q ≠ s.sh.next ∨ i = s.sh.vars.length ∧ q = s.sh.next := by
        intro i q hi
        rcases Nat.lt_or_ge i s.sh.vars.length with hl | hl
        · have : s.sh.vars[i]? = some (.ptr q) := by simpa [List.getElem?_append_left hl] using hi
          exact .inl ⟨this, old this⟩
        · simp only [List.getElem?_append_right hl] at hi
          cases hk : i - s.sh.vars.length with
          | zero => rw [hk] at hi; simp at hi; exact .inr ⟨by omega, hi.symm⟩
          | succ k => simp [hk] at hi
      refine ⟨by simp [H.len], ?_, ?_, ?_, ?_, ?_⟩
      · intro i b
        rcases Nat.lt_trichotomy i h.length with hl | hl | hl
        · rw [List.getElem?_append_left hl, List.getElem?_append_left (by rw [← H.len]; exact hl), H.agree i b]
          constructor
          · rintro ⟨r, h1, h2⟩; exact ⟨r, h1, by simp [upd_ne _ _ (old h1), h2]⟩
          · rintro ⟨r, h1, h2⟩; exact ⟨r, h1, by simpa [upd_ne _ _ (old h1)] using h2⟩
        · subst hl
          rw [List.getElem?_append_right (Nat.le_refl _), List.getElem?_append_right (by rw [H.len]; exact Nat.le_refl _), ← H.len]
          simp
        · rw [List.getElem?_eq_none (by simp; omega), List.getElem?_eq_none (by have := H.len; simp; omega)]; simp
      · intro i r hi
        rcases at_ hi with ⟨h1, h2⟩ | ⟨-, h2⟩
        · obtain ⟨a1, a2, a3, a4⟩ := H.owned i r h1
          exact ⟨by simp [upd_ne _ _ h2, a1], Nat.lt_succ_of_lt a2, .tail _ a3, by simp [upd_ne _ _ h2, a4]⟩
        · subst h2
          exact ⟨by simp, Nat.lt_succ_self _, .head _, by simp⟩
      · intro i j r hi hj
        rcases at_ hi with ⟨h1, h2⟩ | ⟨h1, h2⟩ <;> rcases at_ hj with ⟨h3, h4⟩ | ⟨h3, h4⟩
        · exact H.apart i j r h1 h3
        · exact absurd h4 h2
        · exact absurd h2 h4
        · omega
      · intro r hr
        rcases List.mem_cons.mp hr with e | hr
        · cases e
        · exact H.open_ r hr
      · intro i
        rcases Nat.lt_or_ge i s.sh.vars.length with hl | hl
        · simpa [List.getElem?_append_left hl] using H.noindet i
        · simp only [List.getElem?_append_right hl]
          cases hk : i - s.sh.vars.length <;> simp
  | write i a =>
    simp only [step] at hs
    split at hs
    · rename_i r hi
      rw [if_pos (H.live hi)] at hs
      simp only [Res.ok.injEq] at hs
      subst hs
      have hil : i < h.length := by
        rw [H.len]; exact (List.getElem?_eq_some_iff.mp hi).1
      refine ⟨by simp [ideal, H.len], ?_, ?_, H.apart, H.open_, H.noindet⟩
      · intro j b
        simp only [ideal]
        by_cases hj : j = i
        · subst hj
          rw [List.getElem?_set_self hil]
          simp [hi, upd]
        · rw [List.getElem?_set_ne (fun e => hj e.symm), H.agree]
          constructor
          · rintro ⟨q, h1, h2⟩
            have : q ≠ r := fun e => hj (H.apart j i r (e ▸ h1) hi)
            exact ⟨q, h1, by simp [upd_ne _ _ this, h2]⟩
          · rintro ⟨q, h1, h2⟩
            have : q ≠ r := fun e => hj (H.apart j i r (e ▸ h1) hi)
            exact ⟨q, h1, by simpa [upd_ne _ _ this] using h2⟩
      · intro j q hj
        obtain ⟨a1, a2, a3, a4⟩ := H.owned j q hj
        refine ⟨a1, a2, a3, ?_⟩
        by_cases e : q = r
        · subst e; simp
        · simp [upd_ne _ _ e, a4]
    · cases hs
  | drop i =>
    obtain ⟨sh, hc, hv, hn, hl, hcnt⟩ := H.clean (show Shared.Has s.sh i from hp)
    simp only [step, onShared, Shared.step, hc, Res.ok.injEq] at hs
    subst hs
    have hil : i < s.sh.vars.length := by
      obtain ⟨p, hp', -⟩ := Shared.Has.get (show Shared.Has s.sh i from hp)
      exact (List.getElem?_eq_some_iff.mp hp').1
    have at_ : ∀ {j q}, (s.sh.vars.set i .gone)[j]? = some (Shared.Slot.ptr q) → j ≠ i ∧ s.sh.vars[j]? = some (.ptr q) := by
      intro j q hj
      by_cases e : j = i
      · subst e; rw [List.getElem?_set_self hil] at hj; cases hj
      · exact ⟨e, by rwa [List.getElem?_set_ne (fun e' => e e'.symm)] at hj⟩
    refine ⟨by simp [ideal, hv, H.len], ?_, ?_, ?_, ?_, ?_⟩
    · intro j b
      simp only [ideal, hv]
      by_cases e : j = i
      · subst e; rw [List.getElem?_set_self (by rw [H.len]; exact hil), List.getElem?_set_self hil]; simp
      · rw [List.getElem?_set_ne (fun e' => e e'.symm), List.getElem?_set_ne (fun e' => e e'.symm)]; exact H.agree j b
    · intro j q hj
      rw [hv] at hj
      obtain ⟨e, hj⟩ := at_ hj
      obtain ⟨a1, a2, a3, a4⟩ := H.owned j q hj
      exact ⟨by rw [show (sh.cnt q) = s.sh.cnt q from hcnt q fun hi => e (H.apart j i q hj hi)]; exact a1, by rw [hn]; exact a2, by rw [hl]; exact a3, a4⟩
    · intro j k q hj hk
      rw [hv] at hj hk
      exact H.apart j k q (at_ hj).2 (at_ hk).2
    · intro r; rw [hl]; exact H.open_ r
    · intro j
      rw [hv]
      by_cases e : j = i
      · subst e; rw [List.getElem?_set_self hil]; simp
      · rw [List.getElem?_set_ne (fun e' => e e'.symm)]; exact H.noindet j
  | move j =>
    obtain ⟨hj, -⟩ := (show Shared.Has s.sh j ∧ _ from hp)
    obtain ⟨p, hjp, hg⟩ := hj.get
    have hjl : j < s.sh.vars.length := (List.getElem?_eq_some_iff.mp hjp).1
    have hjl' : j < h.length := by rw [H.len]; exact hjl
    have key : ∀ q : Shared.Slot, s'.sh.vars = s.sh.vars.set j .null ++ [q] → s'.sh.cnt = s.sh.cnt → s'.sh.next = s.sh.next → s'.sh.log = s.sh.log →
        s'.val = s.val → s.sh.vars[j]? = some q → q ≠ .indet → Lone s' (ideal h (.move j)) := by
      intro q hv hc hn hl hva hq hqi
      have at_ : ∀ {k r}, s'.sh.vars[k]? = some (Shared.Slot.ptr r) →
          (k ≠ j ∧ k < s.sh.vars.length ∧ s.sh.vars[k]? = some (.ptr r)) ∨ (k = s.sh.vars.length ∧ q = .ptr r) := by
        intro k r hk
        rw [hv] at hk
        rcases Nat.lt_or_ge k s.sh.vars.length with hkl | hkl
        · rw [List.getElem?_append_left (by simpa using hkl)] at hk
          by_cases e : k = j
          · subst e; rw [List.getElem?_set_self hjl] at hk; cases hk
          · exact .inl ⟨e, hkl, by rwa [List.getElem?_set_ne (fun e' => e e'.symm)] at hk⟩
        · rw [List.getElem?_append_right (by simpa using hkl)] at hk
          simp only [List.length_set] at hk
          cases hz : k - s.sh.vars.length with
          | zero => rw [hz] at hk; simp at hk; exact .inr ⟨by omega, hk⟩
          | succ z => simp [hz] at hk
      refine ⟨by simp [ideal, hv, H.len], ?_, ?_, ?_, ?_, ?_⟩
      · intro k b
        simp only [ideal, hv, hva]
        rcases Nat.lt_trichotomy k h.length with hk | hk | hk
        · rw [List.getElem?_append_left (by simpa using hk), List.getElem?_append_left (by rw [List.length_set, ← H.len]; exact hk)]
          by_cases e : k = j
          · subst e; rw [List.getElem?_set_self hk, List.getElem?_set_self hjl]; simp
          · rw [List.getElem?_set_ne (fun e' => e e'.symm), List.getElem?_set_ne (fun e' => e e'.symm)]; exact H.agree k b
        · subst hk
          rw [List.getElem?_append_right (by simp), List.getElem?_append_right (by simp [H.len]), List.length_set, List.length_set, ← H.len]
          have hh : h[j]? = some (h[j]'hjl') := List.getElem?_eq_getElem hjl'
          have hag := H.agree j b
          rw [hh] at hag ⊢
          rw [hq] at hag
          simpa using hag
        · rw [List.getElem?_eq_none (by simp; omega), List.getElem?_eq_none (by have := H.len; simp; omega)]; simp
      · intro k r hk
        rw [hc, hn, hl, hva]
        rcases at_ hk with ⟨-, -, hk⟩ | ⟨-, hk⟩
        · exact H.owned k r hk
        · subst hk; exact H.owned j r hq
      · intro k m r hk hm
        rcases at_ hk with ⟨h1, h2, h3⟩ | ⟨h1, h2⟩ <;> rcases at_ hm with ⟨h4, h5, h6⟩ | ⟨h4, h5⟩
        · exact H.apart k m r h3 h6
        · subst h5; exact absurd (H.apart k j r h3 hq) h1
        · subst h2; exact absurd (H.apart m j r h6 hq) h4
        · omega
      · intro r; rw [hl]; exact H.open_ r
      · intro k
        rw [hv]
        rcases Nat.lt_or_ge k s.sh.vars.length with hkl | hkl
        · rw [List.getElem?_append_left (by simpa using hkl)]
          by_cases e : k = j
          · subst e; rw [List.getElem?_set_self hjl]; simp
          · rw [List.getElem?_set_ne (fun e' => e e'.symm)]; exact H.noindet k
        · rw [List.getElem?_append_right (by simpa using hkl)]
          simp only [List.length_set]
          cases hz : k - s.sh.vars.length with
          | zero => simpa using hqi
          | succ z => simp
    cases p with
    | gone => exact absurd rfl hg
    | indet => exact absurd hjp (H.noindet j)
    | null =>
      simp only [step, onShared, Shared.step, hjp, Res.ok.injEq] at hs
      subst hs
      refine key .null ?_ rfl rfl rfl rfl hjp (by simp)
      simp only
      rw [set_same hjp]
    | ptr r =>
      simp only [step, onShared, Shared.step, hjp, Res.ok.injEq] at hs
      subst hs
      exact key (.ptr r) rfl rfl rfl rfl rfl hjp (by simp)
  | moveAssign i j =>
    obtain ⟨hi, hj, hij⟩ := (show Shared.Has s.sh i ∧ Shared.Has s.sh j ∧ i ≠ j from hp)
    obtain ⟨sh, hc, hv, hn, hl, hcnt⟩ := H.clean hi
    obtain ⟨p, hjp, hg⟩ := hj.get
    have hjl : j < s.sh.vars.length := (List.getElem?_eq_some_iff.mp hjp).1
    have hil : i < s.sh.vars.length := by
      obtain ⟨p, hp', -⟩ := hi.get
      exact (List.getElem?_eq_some_iff.mp hp').1
    have key : ∀ q : Shared.Slot, s'.sh.vars = (s.sh.vars.set i q).set j .null → s'.sh.cnt = sh.cnt → s'.sh.next = s.sh.next → s'.sh.log = s.sh.log →
        s'.val = s.val → s.sh.vars[j]? = some q → q ≠ .indet → Lone s' (ideal h (.moveAssign i j)) := by
      intro q hv' hc' hn' hl' hva hq hqi
      have at_ : ∀ {k r}, s'.sh.vars[k]? = some (Shared.Slot.ptr r) →
          (k ≠ j ∧ k ≠ i ∧ s.sh.vars[k]? = some (.ptr r)) ∨ (k = i ∧ q = .ptr r) := by
        intro k r hk
        rw [hv'] at hk
        by_cases e : k = j
        · subst e; rw [List.getElem?_set_self (by simpa using hjl)] at hk; cases hk
        · rw [List.getElem?_set_ne (fun e' => e e'.symm)] at hk
          by_cases e' : k = i
          · subst e'; rw [List.getElem?_set_self hil] at hk; exact .inr ⟨rfl, Option.some.inj hk⟩
          · exact .inl ⟨e, e', by rwa [List.getElem?_set_ne (fun e'' => e' e''.symm)] at hk⟩
      refine ⟨by simp [ideal, hv', H.len], ?_, ?_, ?_, ?_, ?_⟩
      · intro k b
        simp only [ideal, hv', hva]
        by_cases e : k = j
        · subst e; rw [List.getElem?_set_self (by simpa [H.len] using hjl), List.getElem?_set_self (by simpa using hjl)]; simp
        · rw [List.getElem?_set_ne (fun e' => e e'.symm), List.getElem?_set_ne (fun e' => e e'.symm)]
          by_cases e' : k = i
          · subst e'
            rw [List.getElem?_set_self (by rw [H.len]; exact hil), List.getElem?_set_self hil]
            have hh : h[j]? = some (h[j]'(by rw [H.len]; exact hjl)) := List.getElem?_eq_getElem _
            have hag := H.agree j b
            rw [hh] at hag ⊢
            rw [hq] at hag
            simpa using hag
          · rw [List.getElem?_set_ne (fun e'' => e' e''.symm), List.getElem?_set_ne (fun e'' => e' e''.symm)]; exact H.agree k b
      · intro k r hk
        rw [hc', hn', hl', hva]
        rcases at_ hk with ⟨e, e', hk⟩ | ⟨e, hk⟩
        · rw [hcnt r fun hi' => e' (H.apart k i r hk hi')]; exact H.owned k r hk
        · subst hk; rw [hcnt r fun hi' => hij (H.apart i j r hi' hq)]; exact H.owned j r hq
      · intro k m r hk hm
        rcases at_ hk with ⟨h1, h2, h3⟩ | ⟨h1, h2⟩ <;> rcases at_ hm with ⟨h4, h5, h6⟩ | ⟨h4, h5⟩
        · exact H.apart k m r h3 h6
        · subst h5; exact absurd (H.apart k j r h3 hq) h1
        · subst h2; exact absurd (H.apart m j r h6 hq) h4
        · omega
      · intro r; rw [hl']; exact H.open_ r
      · intro k
        rw [hv']
        by_cases e : k = j
        · subst e; rw [List.getElem?_set_self (by simpa using hjl)]; simp
        · rw [List.getElem?_set_ne (fun e' => e e'.symm)]
          by_cases e' : k = i
          · subst e'; rw [List.getElem?_set_self hil]; simpa using hqi
          · rw [List.getElem?_set_ne (fun e'' => e' e''.symm)]; exact H.noindet k
    have hjp' : sh.vars[j]? = some p := by rw [hv]; exact hjp
    cases p with
    | gone => exact absurd rfl hg
    | indet => exact absurd hjp (H.noindet j)
    | null =>
      simp only [step, onShared, Shared.step, hc, hjp', Res.ok.injEq] at hs
      subst hs
      exact key .null (by simp [hv]) rfl hn hl rfl hjp (by simp)
    | ptr r =>
      simp only [step, onShared, Shared.step, hc, hjp', Res.ok.injEq] at hs
      subst hs
      exact key (.ptr r) (by simp [hv]) rfl hn hl rfl hjp (by simp)

/-- What the specification says after a history. -/
def after (os : List (Op α)) : List (Option α) := os.foldl ideal []

/-- A program without copies, statement by statement. -/
inductive LoneRun : List (Op α) → St α → Prop where
  | nil : LoneRun [] start
  | snoc {os : List (Op α)} {s s' : St α} {o : Op α} : LoneRun os s → lone s o → step s o = .ok s' → LoneRun (os ++ [o]) s'

theorem LoneRun.inv {os : List (Op α)} {s : St α} (R : LoneRun os s) : Lone s (after os) := by
  induction R with
  | nil => exact Lone.start
  | snoc _ hp hs ih => rw [after, List.foldl_append]; exact lone_step ih hp hs

theorem LoneRun.of_runPre : ∀ {os' os : List (Op α)} {s s' : St α}, LoneRun os s → runPre step lone s os' = some s' → LoneRun (os ++ os') s' := by
  intro os'
  induction os' with
  | nil => intro os s s' h hr; simp [runPre] at hr; subst hr; simpa using h
  | cons o os' ih =>
    intro os s s' h hr
    simp only [runPre] at hr
    split at hr
    · rename_i hp
      cases hs : step s o with
      | ok t => rw [hs] at hr; simpa using ih (.snoc h hp hs) hr
      | ub => rw [hs] at hr; cases hr
      | loop => rw [hs] at hr; cases hr
    · cases hr

theorem LoneRun.witness (os : List (Op α)) {β : Type} (f : St α → β) (b : β) (h : (runPre step lone start os).map f = some b) :
    ∃ s, LoneRun os s ∧ f s = b := by
  obtain ⟨s, hs, e⟩ := Option.map_eq_some_iff.mp h
  exact ⟨s, by simpa using LoneRun.nil.of_runPre hs, e⟩

/-- Every allowed statement is defined. -/
theorem Lone.progress {s : St α} {h} (H : Lone s h) {o : Op α} (hp : lone s o) : ∃ s', step s o = .ok s' := by
  cases o with
  | default => exact absurd hp id
  | copy j => exact absurd hp id
  | copyAssign i j => exact absurd hp id
  | assignValue i a => exact absurd hp id
  | empty => exact ⟨_, rfl⟩
  | make mem a => cases mem <;> exact ⟨_, rfl⟩
  | write i a =>
    obtain ⟨hi, hn⟩ := (show Shared.Has s.sh i ∧ s.sh.vars[i]? ≠ some .null from hp)
    obtain ⟨p, hip, hg⟩ := hi.get
    cases p with
    | gone => exact absurd rfl hg
    | indet => exact absurd hip (H.noindet i)
    | null => exact absurd hip hn
    | ptr r => exact ⟨_, by simp only [step, hip, if_pos (H.live hip)]; rfl⟩
  | drop i =>
    obtain ⟨sh, hc, -⟩ := H.clean (show Shared.Has s.sh i from hp)
    exact ⟨_, by simp only [step, onShared, Shared.step, hc]; rfl⟩
  | move j =>
    obtain ⟨hj, -⟩ := (show Shared.Has s.sh j ∧ _ from hp)
    obtain ⟨p, hjp, hg⟩ := hj.get
    cases p with
    | gone => exact absurd rfl hg
    | indet => exact absurd hjp (H.noindet j)
    | null => exact ⟨_, by simp only [step, onShared, Shared.step, hjp]; rfl⟩
    | ptr r => exact ⟨_, by simp only [step, onShared, Shared.step, hjp]; rfl⟩
  | moveAssign i j =>
    obtain ⟨hi, hj, -⟩ := (show Shared.Has s.sh i ∧ Shared.Has s.sh j ∧ i ≠ j from hp)
    obtain ⟨sh, hc, hv, -⟩ := H.clean hi
    obtain ⟨p, hjp, hg⟩ := hj.get
    have hjp' : sh.vars[j]? = some p := by rw [hv]; exact hjp
    cases p with
    | gone => exact absurd rfl hg
    | indet => exact absurd hjp (H.noindet j)
    | null => exact ⟨_, by simp only [step, onShared, Shared.step, hc, hjp']; rfl⟩
    | ptr r => exact ⟨_, by simp only [step, onShared, Shared.step, hc, hjp']; rfl⟩

/-! ## All programs -/

theorem onShared_ok {s s' : St α} {o : Shared.Op} (h : onShared s o = .ok s') : Shared.step s.sh o = .ok s'.sh ∧ s'.val = s.val := by
  unfold onShared at h
  split at h
  · rename_i sh e; cases h; exact ⟨e, rfl⟩
  · cases h
  · cases h

/-- A statement either is one of the shared pointers' or leaves them as they are. -/
theorem step_shared {s s' : St α} {o : Op α} (hp : pre s o) (hs : step s o = .ok s') :
    s'.sh = s.sh ∨ ∃ o', Shared.pre s.sh o' ∧ Shared.step s.sh o' = .ok s'.sh := by
  cases o with
  | default => exact absurd hp id
  | assignValue i a => exact absurd hp id
  | write i a =>
    simp only [step] at hs
    split at hs
    · split at hs
      · cases hs; exact .inl rfl
      · cases hs
    · cases hs
  | make mem a =>
    simp only [step] at hs
    split at hs
    · rename_i sh e; cases hs; exact .inr ⟨.create mem, hp, e⟩
    · cases hs
    · cases hs
  | empty => exact .inr ⟨.create false, hp, (onShared_ok (show onShared s (.create false) = .ok s' from hs)).1⟩
  | copy j => exact .inr ⟨.copyCtor j, hp, (onShared_ok hs).1⟩
  | move j => exact .inr ⟨.moveCtor j, hp, (onShared_ok hs).1⟩
  | copyAssign i j => exact .inr ⟨.copyAssign i j, hp, (onShared_ok hs).1⟩
  | moveAssign i j => exact .inr ⟨.moveAssign i j, hp, (onShared_ok hs).1⟩
  | drop i => exact .inr ⟨.drop i, hp, (onShared_ok hs).1⟩

theorem reach_shared {s : St α} (h : Reach step pre start s) : Reach Shared.step Shared.pre Shared.init s.sh := by
  induction h with
  | start => exact .start
  | step _ hp hs ih =>
    rcases step_shared hp hs with e | ⟨o', hp', hs'⟩
    · rw [e]; exact ih
    · exact .step ih hp' hs'

/-- `clean` changes no other pointer, makes nothing and keeps what was made. -/
theorem cleanVar_old {s s' : Shared.St} {i : Nat} (h : Shared.cleanVar s i = .ok s') :
    (∀ r, .ptr r ∈ s'.vars → Shared.Slot.ptr r ∈ s.vars) ∧ s'.next = s.next ∧ ∀ r, .made r ∈ s'.log ↔ .made r ∈ s.log := by
  unfold Shared.cleanVar at h
  split at h
  · cases h; exact ⟨fun _ h => h, rfl, fun _ => Iff.rfl⟩
  · split at h
    · simp only at h
      split at h
      · cases h
        refine ⟨fun r hr => ?_, rfl, fun r => by simp⟩
        rcases List.mem_or_eq_of_mem_set hr with e | e
        · exact e
        · cases e
      · cases h; exact ⟨fun _ h => h, rfl, fun _ => Iff.rfl⟩
    · cases h
  · cases h

theorem incr_old {s s' : Shared.St} {p : Shared.Slot} (h : Shared.incr s p = .ok s') : s'.vars = s.vars ∧ s'.next = s.next ∧ s'.log = s.log := by
  unfold Shared.incr at h
  split at h
  · split at h
    · cases h; exact ⟨rfl, rfl, rfl⟩
    · cases h
  · cases h

/-- Pointers to objects made earlier come from pointers to them; only `create` makes objects. -/
theorem shared_old {s s' : Shared.St} {o : Shared.Op} (h : Shared.step s o = .ok s') :
    s.next ≤ s'.next ∧ (∀ r, r < s.next → .ptr r ∈ s'.vars → Shared.Slot.ptr r ∈ s.vars) ∧ (∀ r, .made r ∈ s.log → .made r ∈ s'.log) ∧
      (o ≠ .create true → ∀ r, .made r ∈ s'.log → .made r ∈ s.log) := by
  cases o with
  | defaultCtor => cases h; exact ⟨Nat.le_refl _, fun r _ hr => by simpa using hr, fun _ h => h, fun _ _ h => h⟩
  | create alloc =>
    cases alloc with
    | false =>
      simp only [Shared.step, Bool.false_eq_true, if_false, Res.ok.injEq] at h
      subst h
      exact ⟨Nat.le_refl _, fun r _ hr => by simpa using hr, fun _ h => h, fun _ _ h => h⟩
    | true =>
      simp only [Shared.step, if_true, Res.ok.injEq] at h
      subst h
      refine ⟨Nat.le_succ _, fun r hl hr => ?_, fun _ h => .tail _ h, fun h => absurd rfl h⟩
      rcases List.mem_append.mp hr with e | e
      · exact e
      · simp only [List.mem_singleton, Shared.Slot.ptr.injEq] at e; omega
  | copyCtor j =>
    simp only [Shared.step] at h
    split at h
    · rename_i p hp
      split at h
      · rename_i s₁ e
        obtain ⟨e1, e2, e3⟩ := incr_old e
        cases h
        refine ⟨Nat.le_of_eq e2.symm, fun r _ hr => ?_, fun r hr => by simpa [e3] using hr, fun _ r hr => by simpa [e3] using hr⟩
        rcases List.mem_append.mp hr with e' | e'
        · rwa [e1] at e'
        · rw [List.mem_singleton.mp e']; exact List.mem_of_getElem? hp
      · cases h
      · cases h
    · cases h
  | moveCtor j =>
    simp only [Shared.step] at h
    split at h
    · cases h; exact ⟨Nat.le_refl _, fun r _ hr => by simpa using hr, fun _ h => h, fun _ _ h => h⟩
    · rename_i q hq
      cases h
      refine ⟨Nat.le_refl _, fun r _ hr => ?_, fun _ h => h, fun _ _ h => h⟩
      rcases List.mem_append.mp hr with e | e
      · rcases List.mem_or_eq_of_mem_set e with e | e
        · exact e
        · cases e
      · rw [List.mem_singleton.mp e]; exact List.mem_of_getElem? hq
    · cases h
  | copyAssign i j =>
    simp only [Shared.step] at h
    split at h
    · rename_i s₁ hc
      obtain ⟨c1, c2, c3⟩ := cleanVar_old hc
      split at h
      · rename_i p hp
        split at h
        · rename_i s₂ e
          obtain ⟨e1, e2, e3⟩ := incr_old e
          cases h
          refine ⟨Nat.le_of_eq (by simp [e2, c2]), fun r _ hr => ?_, fun r hr => ?_, fun _ r hr => ?_⟩
          · rcases List.mem_or_eq_of_mem_set hr with e' | e'
            · rw [e1] at e'; exact c1 r e'
            · exact c1 r (by rw [e']; exact List.mem_of_getElem? hp)
          · simp only [e3]; exact (c3 r).mpr hr
          · simp only [e3] at hr; exact (c3 r).mp hr
        · cases h
        · cases h
      · cases h
    · cases h
    · cases h
  | moveAssign i j =>
    simp only [Shared.step] at h
    split at h
    · rename_i s₁ hc
      obtain ⟨c1, c2, c3⟩ := cleanVar_old hc
      split at h
      · cases h
        refine ⟨Nat.le_of_eq c2.symm, fun r _ hr => ?_, fun r hr => (c3 r).mpr hr, fun _ r hr => (c3 r).mp hr⟩
        rcases List.mem_or_eq_of_mem_set hr with e | e
        · rcases List.mem_or_eq_of_mem_set e with e | e
          · exact c1 r e
          · cases e
        · cases e
      · rename_i q hq
        cases h
        refine ⟨Nat.le_of_eq c2.symm, fun r _ hr => ?_, fun r hr => (c3 r).mpr hr, fun _ r hr => (c3 r).mp hr⟩
        rcases List.mem_or_eq_of_mem_set hr with e | e
        · rcases List.mem_or_eq_of_mem_set e with e | e
          · exact c1 r e
          · exact c1 r (by rw [e]; exact List.mem_of_getElem? hq)
        · cases e
      · cases h
    · cases h
    · cases h
  | clean i =>
    obtain ⟨c1, c2, c3⟩ := cleanVar_old (show Shared.cleanVar s i = .ok s' from h)
    exact ⟨Nat.le_of_eq c2.symm, fun r _ hr => c1 r hr, fun r hr => (c3 r).mpr hr, fun _ r hr => (c3 r).mp hr⟩
  | drop i =>
    simp only [Shared.step] at h
    split at h
    · rename_i s₁ hc
      obtain ⟨c1, c2, c3⟩ := cleanVar_old hc
      cases h
      refine ⟨Nat.le_of_eq c2.symm, fun r _ hr => ?_, fun r hr => (c3 r).mpr hr, fun _ r hr => (c3 r).mp hr⟩
      rcases List.mem_or_eq_of_mem_set hr with e | e
      · exact c1 r e
      · cases e
    · cases h
    · cases h
  | deref i =>
    simp only [Shared.step] at h
    split at h
    · split at h
      · cases h; exact ⟨Nat.le_refl _, fun _ _ h => h, fun _ h => .tail _ h, fun _ r hr => by simpa using hr⟩
      · cases h
    · cases h

/-- Every object made has a value. -/
theorem reach_val {s : St α} (h : Reach step pre start s) : ∀ r, .made r ∈ s.sh.log → (s.val r).isSome = true := by
  induction h with
  | start => intro r hr; cases hr
  | @step s s' o _ hp hs ih =>
    have keep : ∀ {o' : Shared.Op}, o' ≠ .create true → onShared s o' = .ok s' → ∀ r, .made r ∈ s'.sh.log → (s'.val r).isSome = true := by
      intro o' hne e r hr
      obtain ⟨h1, h2⟩ := onShared_ok e
      rw [h2]
      exact ih r ((shared_old h1).2.2.2 hne r hr)
    cases o with
    | default => exact absurd hp id
    | assignValue i a => exact absurd hp id
    | empty => exact keep (o' := .create false) (by simp) hs
    | copy j => exact keep (o' := .copyCtor j) (by simp) hs
    | move j => exact keep (o' := .moveCtor j) (by simp) hs
    | copyAssign i j => exact keep (o' := .copyAssign i j) (by simp) hs
    | moveAssign i j => exact keep (o' := .moveAssign i j) (by simp) hs
    | drop i => exact keep (o' := .drop i) (by simp) hs
    | write i a =>
      simp only [step] at hs
      split at hs
      · rename_i q _
        split at hs
        · cases hs
          intro r hr
          by_cases e : r = q
          · subst e; simp
          · simpa [upd_ne _ _ e] using ih r hr
        · cases hs
      · cases hs
    | make mem a =>
      cases mem with
      | false =>
        simp only [step, Shared.step, Bool.false_eq_true, if_false, Res.ok.injEq] at hs
        subst hs
        exact ih
      | true =>
        simp only [step, Shared.step, if_true, Res.ok.injEq] at hs
        subst hs
        intro r hr
        by_cases e : r = s.sh.next
        · subst e; simp
        · have : .made r ∈ s.sh.log := by simpa [e] using hr
          simpa [upd_ne _ _ e] using ih r this

theorem reach_trans {s₀ s s' : St α} (h : Reach step pre s₀ s) (h' : Reach step pre s s') : Reach step pre s₀ s' := by
  induction h' with
  | start => exact h
  | step _ hp hs ih => exact .step ih hp hs

/-- An object nobody points at stays so. -/
theorem abandoned {s s' : St α} (h : Reach step pre s s') {r : Nat} (hm : .made r ∈ s.sh.log) (hn : r < s.sh.next) (ho : Shared.Slot.ptr r ∉ s.sh.vars) :
    .made r ∈ s'.sh.log ∧ r < s'.sh.next ∧ Shared.Slot.ptr r ∉ s'.sh.vars := by
  induction h with
  | start => exact ⟨hm, hn, ho⟩
  | step _ hp hs ih =>
    rcases step_shared hp hs with e | ⟨o', -, hs'⟩
    · rw [e]; exact ih
    · obtain ⟨a, b, c, -⟩ := shared_old hs'
      exact ⟨c r ih.1, Nat.lt_of_lt_of_le ih.2.1 a, fun hr => ih.2.2 (b r ih.2.1 hr)⟩

end Flame.Ubjson.Held

namespace Flame
open Own Ubjson

variable {α : Type}

/-- **C175, the part that holds.** In every program without copies each holder contains exactly the value the specification says, reading a holder without value is
undefined, and every allowed statement is defined. -/
theorem C175_lone_partial {os : List (Held.Op α)} {s : Held.St α} (R : Held.LoneRun os s) :
    (∀ i a, Held.read s i = .ok a ↔ (Held.after os)[i]? = some (some a)) ∧
    (∀ i, (∀ a, (Held.after os)[i]? ≠ some (some a)) → Held.read s i = .ub) ∧
    ∀ o, Held.lone s o → ∃ s', Held.step s o = .ok s' := by
  have H := R.inv
  refine ⟨fun i a => ⟨fun hr => ?_, fun h => H.read h⟩, fun i hi => ?_, fun o ho => H.progress ho⟩
  · rw [H.agree]
    unfold Held.read at hr
    split at hr
    · rename_i r hv
      split at hr
      · split at hr
        · rename_i b hb; cases hr; exact ⟨r, hv, hb⟩
        · cases hr
      · cases hr
    · cases hr
  · unfold Held.read
    split
    · rename_i r hv
      split
      · split
        · rename_i b hb; exact absurd ((H.agree i b).mpr ⟨r, hv, hb⟩) (hi b)
        · rfl
      · rfl
    · rfl

example : ∃ s, Held.LoneRun [.make true 5, .make true 6, .write 0 7, .moveAssign 1 0, .move 1, .drop 0] s ∧
    (s.sh.vars, s.val 0, s.sh.log) = ([.gone, .null, .ptr 0], some 7, [.made 1, .made 0]) :=
  Held.LoneRun.witness _ (fun s => (s.sh.vars, s.val 0, s.sh.log)) _ (by decide +kernel)

example : Held.after [.make true 5, .make true 6, .write 0 7, .moveAssign 1 0, .move 1, .drop 0] = [none, none, some 7] := rfl

/-- **C175 fails.** In every program without copies no value is ever given back, whether or not its holder still exists. -/
theorem C175_lone_leaks_violated {os : List (Held.Op α)} {s : Held.St α} (R : Held.LoneRun os s) {r : Nat} (hm : .made r ∈ s.sh.log) :
    Live r s.sh.log := ⟨hm, R.inv.open_ r⟩

/-- **C175 fails.** In every execution: the value of a holder that shares it with no other is abandoned when the holder is destroyed, for good. -/
theorem C175_leak_violated {s : Held.St α} (h : Reach Held.step Held.pre Held.start s) {i r : Nat} (hi : s.sh.vars[i]? = some (.ptr r))
    (h1 : Shared.owners s.sh r = 1) (hl : Live r s.sh.log) :
    ∃ s', Held.step s (.drop i) = .ok s' ∧ ∀ s'', Reach Held.step Held.pre s' s'' → Live r s''.sh.log ∧ Shared.owners s''.sh r = 0 := by
  obtain ⟨sh, hs, hl', ho⟩ := C30_sole_owner_leaks (Held.reach_shared h) hi h1 hl
  have hs' : Held.step s (.drop i) = .ok { s with sh := sh } := by simp only [Held.step, Held.onShared, hs]
  have hp : Held.pre s (.drop i) := by show Shared.Has s.sh i; simp [Shared.Has, hi]
  refine ⟨_, hs', fun s'' h'' => ?_⟩
  have h2 : Reach Held.step Held.pre Held.start s'' := Held.reach_trans (.step h hp hs') h''
  have hn : r < sh.next := (Shared.reach_inv (Held.reach_shared (.step h hp hs'))).fresh r hl'.1
  obtain ⟨a, -, b⟩ := Held.abandoned h'' (r := r) hl'.1 hn (List.count_eq_zero.mp ho)
  have h0 : Shared.owners s''.sh r = 0 := List.count_eq_zero.mpr b
  exact ⟨⟨a, C30_unowned_never_destroyed (Held.reach_shared h2) h0⟩, h0⟩

/-- C175: in every execution reading a holder, and asking whether it has a value, is defined exactly when its object exists. -/
theorem C175_read_exact {s : Held.St α} (h : Reach Held.step Held.pre Held.start s) (i : Nat) :
    ((∃ a, Held.read s i = .ok a) ↔ ∃ r, s.sh.vars[i]? = some (.ptr r) ∧ Live r s.sh.log) ∧
    (Held.valid s i = .ok true ↔ ∃ a, Held.read s i = .ok a) ∧ Held.valid s i ≠ .ok false := by
  have hv := Held.reach_val h
  unfold Held.read Held.valid
  cases e : s.sh.vars[i]? with
  | none => simp
  | some p =>
    cases p with
    | ptr r =>
      by_cases hl : Live r s.sh.log
      · obtain ⟨b, hb⟩ := Option.isSome_iff_exists.mp (hv r hl.1)
        simp [hl, hb]
      · simp [hl]
    | _ => simp

/-- C175: in every execution, after writing through one holder the holders of the same object have the new value and the others what they had. -/
theorem C175_write_exact {s s' : Held.St α} {i : Nat} {b : α} (hs : Held.step s (.write i b) = .ok s') (j : Nat) :
    Held.read s' j = if s.sh.vars[j]? = s.sh.vars[i]? then .ok b else Held.read s j := by
  simp only [Held.step] at hs
  split at hs
  · rename_i r hi
    split at hs
    · rename_i hl
      cases hs
      by_cases e : s.sh.vars[j]? = s.sh.vars[i]?
      · simp [Held.read, e, hi, hl]
      · rw [if_neg e]
        unfold Held.read
        simp only
        split
        · rename_i q hq
          have : q ≠ r := fun e' => e (by rw [hq, hi, e'])
          rw [upd_ne _ _ this]
        · rfl
    · cases hs
  · cases hs

/-- **C175 fails.** In every execution, copying a readable holder gives no value of its own: what is written through the copy is read through the original. -/
theorem C175_copy_shares_violated {s : Held.St α} {j : Nat} {a : α} (hr : Held.read s j = .ok a) (b : α) :
    ∃ s₁ s₂, Held.step s (.copy j) = .ok s₁ ∧ Held.read s₁ s.sh.vars.length = .ok a ∧
      Held.step s₁ (.write s.sh.vars.length b) = .ok s₂ ∧ Held.read s₂ j = .ok b := by
  unfold Held.read at hr
  split at hr
  · rename_i r hj
    split at hr
    · rename_i hl
      split at hr
      · rename_i c hc
        cases hr
        have hjl : j < s.sh.vars.length := (List.getElem?_eq_some_iff.mp hj).1
        let sh : Shared.St :=
          { s.sh with
            vars := s.sh.vars ++ [.ptr r]
            cnt := upd s.sh.cnt r ((s.sh.cnt r + 1) % Shared.M) }
        refine ⟨⟨sh, s.val⟩, ⟨sh, upd s.val r (some b)⟩, ?_, ?_, ?_, ?_⟩
        · simp [Held.step, Held.onShared, Shared.step, hj, Shared.incr, hl, sh]
        · simp [Held.read, sh, hl, hc]
        · simp [Held.step, sh, hl]
        · simp [Held.read, sh, List.getElem?_append_left hjl, hj, hl]
      · cases hr
    · cases hr
  · cases hr

/-- **C175 fails.** In every execution, destroying a copy destroys the value of the original that had no other copy: reading, copying or destroying the original is
undefined from then on. -/
theorem C175_drop_copy_violated {s : Held.St α} (h : Reach Held.step Held.pre Held.start s) {j r : Nat} (hj : s.sh.vars[j]? = some (.ptr r))
    (h1 : Shared.owners s.sh r = 1) (hl : Live r s.sh.log) (hM : s.sh.vars.length + 1 < Shared.M) :
    ∃ s₁ s₂, Held.step s (.copy j) = .ok s₁ ∧ Held.step s₁ (.drop s.sh.vars.length) = .ok s₂ ∧
      Held.read s₂ j = .ub ∧ Held.step s₂ (.copy j) = .ub ∧ Held.step s₂ (.drop j) = .ub := by
  have hjl : j < s.sh.vars.length := (List.getElem?_eq_some_iff.mp hj).1
  let sh : Shared.St :=
    { s.sh with
      vars := s.sh.vars ++ [.ptr r]
      cnt := upd s.sh.cnt r ((s.sh.cnt r + 1) % Shared.M) }
  have hs : Held.step s (.copy j) = .ok ⟨sh, s.val⟩ := by simp [Held.step, Held.onShared, Shared.step, hj, Shared.incr, hl, sh]
  have hp : Held.pre s (.copy j) := ⟨by simp [Shared.Has, hj], by simp [hj], hM⟩
  have h2 := Reach.step h hp hs
  have hn : sh.vars[s.sh.vars.length]? = some (.ptr r) := by simp [sh]
  have ho : Shared.owners sh r = 2 := by
    have e : s.sh.vars.count (Shared.Slot.ptr r) = 1 := h1
    simp [Shared.owners, sh, e]
  have hz : (sh.cnt r + (Shared.M - 1)) % Shared.M = 0 :=
    (Shared.dec_mod ((Shared.reach_inv (Held.reach_shared h2)).count r hl) ((Shared.reach_inv (Held.reach_shared h2)).cntLt r) (by
      show 1 ≤ Shared.owners sh r; omega)).2.mpr ho
  let sh' : Shared.St :=
    { sh with
      vars := (sh.vars.set s.sh.vars.length .null).set s.sh.vars.length .gone
      cnt := upd sh.cnt r ((sh.cnt r + (Shared.M - 1)) % Shared.M)
      log := .closed r :: sh.log }
  have hl2 : Live r sh.log := hl
  have hd : Held.step ⟨sh, s.val⟩ (.drop s.sh.vars.length) = .ok ⟨sh', s.val⟩ := by
    simp only [Held.step, Held.onShared, Shared.step, Shared.cleanVar, hn, if_pos hl2, hz, if_true]
    simp [sh', hz]
  have hj' : sh'.vars[j]? = some (.ptr r) := by
    show ((sh.vars.set _ _).set _ _)[j]? = _
    rw [List.getElem?_set_ne (by omega), List.getElem?_set_ne (by omega)]
    show (s.sh.vars ++ [_])[j]? = _
    rw [List.getElem?_append_left hjl, hj]
  have hdead : .closed r ∈ sh'.log := by simp [sh']
  have hnl : ¬ Live r sh'.log := fun h => h.2 hdead
  obtain ⟨-, d2, d3⟩ := C30_dangling_ub hj' hdead
  refine ⟨_, _, hs, hd, by simp [Held.read, hj', hnl], ?_, ?_⟩
  · simp only [Held.step, Held.onShared, d3]
  · simp only [Held.step, Held.onShared, d2]

/-- A state as the theorems above want it. -/
example : ∃ s : Held.St Nat, Reach Held.step Held.pre Held.start s ∧ (s.sh.vars, s.sh.log, s.val 0) = ([.ptr 0], [.made 0], some 5) :=
  ⟨_, .step .start (o := .make true 5) (by decide +kernel) rfl, rfl⟩

/-- **C175 fails.** `BaseValue v;` makes a holder with which nothing can be done, not even destroying it. -/
theorem C175_default_ub (s : Held.St α) : ∃ s', Held.step s .default = .ok s' ∧ Held.read s' s.sh.vars.length = .ub ∧
    Held.valid s' s.sh.vars.length = .ub ∧
    ∀ o ∈ [.copy s.sh.vars.length, .move s.sh.vars.length, .drop s.sh.vars.length], Held.step s' o = .ub := by
  refine ⟨_, rfl, by simp [Held.read], by simp [Held.valid], ?_⟩
  simp [Held.step, Held.onShared, Shared.step, Shared.cleanVar, Shared.incr]

namespace Flame
open Own Ubjson
example : ∃ s : Held.St Nat, Live 0 s.sh.log :=
  (Held.LoneRun.witness [.make true 5, .make true 6, .moveAssign 1 0, .drop 0] (fun s => decide (.made 0 ∈ s.sh.log)) true (by decide +kernel)).imp
    fun _ h => C175_lone_leaks_violated h.1 (of_decide_eq_true h.2)
example := C175_leak_violated (.visit ([.make true 5] : List (Held.Op Nat)) (by decide +kernel)) (i := 0) (r := 0) (by decide +kernel)
  (by decide +kernel) (by decide +kernel)
example := C175_read_exact (.visit ([.make true 5, .copy 0] : List (Held.Op Nat)) (by decide +kernel)) 1
private abbrev twoHolders : Held.St Nat := visit Held.step Held.pre Held.start [.make true 5, .copy 0]
example : ∃ s', Held.step twoHolders (.write 1 9) = .ok s' ∧ Held.read s' 0 = .ok 9 := by
  have h : (match Held.step twoHolders (.write 1 9) with | .ok _ => true | _ => false) = true := by decide +kernel
  have e : twoHolders.sh.vars[0]? = twoHolders.sh.vars[1]? := by decide +kernel
  cases hs : Held.step twoHolders (.write 1 9) with
  | ok s' => exact ⟨s', rfl, by rw [C175_write_exact hs 0, if_pos e]⟩
  | ub => rw [hs] at h; cases h
  | loop => rw [hs] at h; cases h
example := C175_copy_shares_violated (s := visit Held.step Held.pre Held.start ([.make true 5] : List (Held.Op Nat))) (j := 0) (a := 5) (by decide +kernel) 9
end Flame

end Flame
