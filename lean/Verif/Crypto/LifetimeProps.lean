import Verif.Crypto.Lifetime

/-! # C165: a PKCS#11 module stays initialised while a pointer or slot refers to it, and is finalised when none does -/

namespace Flame.Pkcs11.Life
open Own

theorem cleanVar_frame {s s' : Shared.St} {i : Nat} (h : Shared.cleanVar s i = .ok s') :
    s'.next = s.next ∧ s'.vars.length = s.vars.length ∧ (∀ j, j ≠ i → s'.vars[j]? = s.vars[j]?) ∧
    (s'.log = s.log ∨ ∃ q, s'.log = .closed q :: s.log ∧ Live q s.log) := by
  unfold Shared.cleanVar at h
  cases e : s.vars[i]? with
  | none => simp [e] at h
  | some p =>
    cases p with
    | null => simp [e] at h; subst h; simp
    | ptr r =>
      by_cases hl : Live r s.log
      · by_cases hz : (s.cnt r + (Shared.M - 1)) % Shared.M = 0
        · simp [e, hl, hz] at h
          subst h
          refine ⟨rfl, by simp, ?_, Or.inr ⟨r, rfl, hl⟩⟩
          intro j hj
          exact List.getElem?_set_ne (fun e => hj e.symm)
        · simp [e, hl, hz] at h
          subst h
          simp
      · simp [e, hl] at h
    | _ => simp [e] at h

/-- What an operation leaves alone. -/
theorem step_frame {s s' : Shared.St} {o : Shared.Op} (h : Shared.step s o = .ok s') :
    s.vars.length ≤ s'.vars.length ∧ (∀ j, j ∉ named o → j < s.vars.length → s'.vars[j]? = s.vars[j]?) ∧
    ((∀ b, o ≠ .create b) → s'.next = s.next ∧
      ((destroyed s s' = none ∧ ∀ q, .closed q ∈ s'.log ↔ .closed q ∈ s.log) ∨
        ∃ q, destroyed s s' = some q ∧ Live q s.log ∧ s'.log = .closed q :: s.log)) := by
  have same : ∀ t : Shared.St, t.log = s.log → destroyed s t = none := by
    intro t ht
    unfold destroyed
    split
    · rename_i q l hl
      rw [if_neg]
      intro e
      have h1 : s.log = .closed q :: l := by rw [← ht]; exact hl
      have : l.length = (Ev.closed q :: l).length := by rw [← h1, e]
      simp at this
    · rfl
  have clo : ∀ (t : Shared.St) (q : Nat), t.log = .closed q :: s.log → destroyed s t = some q := by
    intro t q ht
    simp [destroyed, ht]
  have app : ∀ (l : List Shared.Slot) (x : Shared.Slot) (j : Nat), j < l.length → (l ++ [x])[j]? = l[j]? := by
    intro l x j hj
    exact List.getElem?_append_left hj
  cases o with
  | defaultCtor =>
    simp [Shared.step] at h
    subst h
    exact ⟨by simp, fun j _ hj => app _ _ _ hj, fun _ => ⟨rfl, Or.inl ⟨same _ rfl, fun _ => Iff.rfl⟩⟩⟩
  | create b =>
    cases b with
    | true =>
      simp [Shared.step] at h
      subst h
      exact ⟨by simp, fun j _ hj => app _ _ _ hj, fun hb => absurd rfl (hb true)⟩
    | false =>
      simp [Shared.step] at h
      subst h
      exact ⟨by simp, fun j _ hj => app _ _ _ hj, fun hb => absurd rfl (hb false)⟩
  | copyCtor k =>
    cases e : s.vars[k]? with
    | none => simp [Shared.step, e] at h
    | some p =>
      cases p with
      | ptr r =>
        by_cases hl : Live r s.log
        · simp [Shared.step, e, Shared.incr, hl] at h
          subst h
          exact ⟨by simp, fun j _ hj => app _ _ _ hj, fun _ => ⟨rfl, Or.inl ⟨same _ rfl, fun _ => Iff.rfl⟩⟩⟩
        · simp [Shared.step, e, Shared.incr, hl] at h
      | _ => simp [Shared.step, e, Shared.incr] at h
  | moveCtor k =>
    cases e : s.vars[k]? with
    | none => simp [Shared.step, e] at h
    | some p =>
      cases p with
      | null =>
        simp [Shared.step, e] at h
        subst h
        exact ⟨by simp, fun j _ hj => app _ _ _ hj, fun _ => ⟨rfl, Or.inl ⟨same _ rfl, fun _ => Iff.rfl⟩⟩⟩
      | ptr r =>
        simp [Shared.step, e] at h
        subst h
        refine ⟨by simp, fun j hj hl => ?_, fun _ => ⟨rfl, Or.inl ⟨same _ rfl, fun _ => Iff.rfl⟩⟩⟩
        have hjk : j ≠ k := by simpa [named] using hj
        rw [app _ _ _ (by simpa using hl)]
        exact List.getElem?_set_ne (fun e => hjk e.symm)
      | _ => simp [Shared.step, e] at h
  | clean i =>
    have h' : Shared.cleanVar s i = .ok s' := h
    obtain ⟨hn, hl, hv, hg⟩ := cleanVar_frame h'
    refine ⟨by omega, fun j hj _ => hv j (by simpa [named] using hj), fun _ => ⟨hn, ?_⟩⟩
    rcases hg with hg | ⟨q, hg, hq⟩
    · exact Or.inl ⟨same _ hg, fun _ => by rw [hg]⟩
    · exact Or.inr ⟨q, clo _ _ hg, hq, hg⟩
  | drop i =>
    cases hc : Shared.cleanVar s i with
    | ok t =>
      simp [Shared.step, hc] at h
      subst h
      obtain ⟨hn, hl, hv, hg⟩ := cleanVar_frame hc
      refine ⟨by simp; omega, fun j hj _ => ?_, fun _ => ⟨hn, ?_⟩⟩
      · have hji : j ≠ i := by simpa [named] using hj
        show (t.vars.set i .gone)[j]? = _
        rw [List.getElem?_set_ne (fun e => hji e.symm), hv j hji]
      · rcases hg with hg | ⟨q, hg, hq⟩
        · exact Or.inl ⟨same _ hg, fun _ => by show _ ∈ t.log ↔ _; rw [hg]⟩
        · exact Or.inr ⟨q, clo _ _ hg, hq, hg⟩
    | ub => simp [Shared.step, hc] at h
    | loop => simp [Shared.step, hc] at h
  | deref i =>
    cases e : s.vars[i]? with
    | none => simp [Shared.step, e] at h
    | some p =>
      cases p with
      | ptr r =>
        by_cases hl : Live r s.log
        · simp [Shared.step, e, hl] at h
          subst h
          exact ⟨by simp, fun j _ _ => rfl, fun _ => ⟨rfl, Or.inl ⟨by simp [destroyed], by simp⟩⟩⟩
        · simp [Shared.step, e, hl] at h
      | _ => simp [Shared.step, e] at h
  | copyAssign i k =>
    cases hc : Shared.cleanVar s i with
    | ok t =>
      obtain ⟨hn, hl, hv, hg⟩ := cleanVar_frame hc
      cases e : t.vars[k]? with
      | none => simp [Shared.step, hc, e] at h
      | some p =>
        cases p with
        | ptr r =>
          by_cases hlv : Live r t.log
          · simp [Shared.step, hc, e, Shared.incr, hlv] at h
            subst h
            refine ⟨by simp; omega, fun j hj _ => ?_, fun _ => ⟨hn, ?_⟩⟩
            · have hji : j ≠ i := by simp [named] at hj; exact hj.1
              show (t.vars.set i _)[j]? = _
              rw [List.getElem?_set_ne (fun e => hji e.symm), hv j hji]
            · rcases hg with hg | ⟨q, hg, hq⟩
              · exact Or.inl ⟨same _ hg, fun _ => by show _ ∈ t.log ↔ _; rw [hg]⟩
              · exact Or.inr ⟨q, clo _ _ hg, hq, hg⟩
          · simp [Shared.step, hc, e, Shared.incr, hlv] at h
        | _ => simp [Shared.step, hc, e, Shared.incr] at h
    | ub => simp [Shared.step, hc] at h
    | loop => simp [Shared.step, hc] at h
  | moveAssign i k =>
    cases hc : Shared.cleanVar s i with
    | ok t =>
      obtain ⟨hn, hl, hv, hg⟩ := cleanVar_frame hc
      cases e : t.vars[k]? with
      | none => simp [Shared.step, hc, e] at h
      | some p =>
        have hx : ∃ x : Shared.Slot, ({ t with vars := (t.vars.set i x).set k .null } : Shared.St) = s' := by
          cases p with
          | null => simp [Shared.step, hc, e] at h; exact ⟨_, h⟩
          | ptr r => simp [Shared.step, hc, e] at h; exact ⟨_, h⟩
          | _ => simp [Shared.step, hc, e] at h
        clear h
        obtain ⟨x, h⟩ := hx
        subst h
        refine ⟨by simp; omega, fun j hj _ => ?_, fun _ => ⟨hn, ?_⟩⟩
        · have hjn : j ≠ i ∧ j ≠ k := by simpa [named] using hj
          show ((t.vars.set i x).set k _)[j]? = _
          rw [List.getElem?_set_ne (fun e => hjn.2 e.symm), List.getElem?_set_ne (fun e => hjn.1 e.symm), hv j hjn.1]
        · rcases hg with hg | ⟨q, hg, hq⟩
          · exact Or.inl ⟨same _ hg, fun _ => by show _ ∈ t.log ↔ _; rw [hg]⟩
          · exact Or.inr ⟨q, clo _ _ hg, hq, hg⟩
    | ub => simp [Shared.step, hc] at h
    | loop => simp [Shared.step, hc] at h

theorem cleanVar_made {s s' : Shared.St} {i q : Nat} (h : Shared.cleanVar s i = .ok s') (hq : .made q ∈ s.log) : .made q ∈ s'.log := by
  rcases (cleanVar_frame h).2.2.2 with e | ⟨r, e, _⟩
  · rw [e]; exact hq
  · rw [e]; simp [hq]

/-- Nothing is forgotten. -/
theorem made_kept {s s' : Shared.St} {o : Shared.Op} (h : Shared.step s o = .ok s') {q : Nat} (hq : .made q ∈ s.log) : .made q ∈ s'.log := by
  by_cases ho : ∃ b, o = .create b
  · obtain ⟨b, rfl⟩ := ho
    cases b <;> (simp [Shared.step] at h; subst h; simp [hq])
  · have hn : ∀ b, o ≠ .create b := fun b e => ho ⟨b, e⟩
    cases o with
    | deref i =>
      cases e : s.vars[i]? with
      | none => simp [Shared.step, e] at h
      | some p =>
        cases p with
        | ptr r =>
          by_cases hl : Live r s.log
          · simp [Shared.step, e, hl] at h; subst h; simp [hq]
          · simp [Shared.step, e, hl] at h
        | _ => simp [Shared.step, e] at h
    | create b => exact absurd rfl (hn b)
    | defaultCtor => simp [Shared.step] at h; subst h; exact hq
    | copyCtor k =>
      cases e : s.vars[k]? with
      | none => simp [Shared.step, e] at h
      | some p =>
        cases p with
        | ptr r =>
          by_cases hl : Live r s.log
          · simp [Shared.step, e, Shared.incr, hl] at h; subst h; exact hq
          · simp [Shared.step, e, Shared.incr, hl] at h
        | _ => simp [Shared.step, e, Shared.incr] at h
    | moveCtor k =>
      cases e : s.vars[k]? with
      | none => simp [Shared.step, e] at h
      | some p => cases p <;> simp [Shared.step, e] at h <;> (subst h; exact hq)
    | clean i => exact cleanVar_made (i := i) h hq
    | drop i =>
      cases hc : Shared.cleanVar s i with
      | ok t =>
        have := cleanVar_made hc hq
        simp [Shared.step, hc] at h
        subst h
        exact this
      | ub => simp [Shared.step, hc] at h
      | loop => simp [Shared.step, hc] at h
    | copyAssign i k =>
      cases hc : Shared.cleanVar s i with
      | ok t =>
        have := cleanVar_made hc hq
        cases e : t.vars[k]? with
        | none => simp [Shared.step, hc, e] at h
        | some p =>
          cases p with
          | ptr r =>
            by_cases hl : Live r t.log
            · simp [Shared.step, hc, e, Shared.incr, hl] at h; subst h; exact this
            · simp [Shared.step, hc, e, Shared.incr, hl] at h
          | _ => simp [Shared.step, hc, e, Shared.incr] at h
      | ub => simp [Shared.step, hc] at h
      | loop => simp [Shared.step, hc] at h
    | moveAssign i k =>
      cases hc : Shared.cleanVar s i with
      | ok t =>
        have := cleanVar_made hc hq
        cases e : t.vars[k]? with
        | none => simp [Shared.step, hc, e] at h
        | some p => cases p <;> simp [Shared.step, hc, e] at h <;> (subst h; exact this)
      | ub => simp [Shared.step, hc] at h
      | loop => simp [Shared.step, hc] at h

/-- Invariant: both families of pointers behave as in C30; the member of a slot is a pointer until the slot is destroyed, and no longer. -/
structure Inv (s : St) : Prop where
  libs : Reach Shared.step Shared.pre Shared.init s.libs
  slots : Reach Shared.step Shared.pre Shared.init s.slots
  len : s.mem.length = s.slots.next
  nodup : s.mem.Nodup
  lt : ∀ m ∈ s.mem, m < s.libs.vars.length
  alive : ∀ q m, s.mem[q]? = some m → .closed q ∉ s.slots.log → Shared.Has s.libs m
  dead : ∀ q m, s.mem[q]? = some m → .closed q ∈ s.slots.log → s.libs.vars[m]? = some .gone

theorem inv_start : Inv start :=
  ⟨.start, .start, rfl, by simp [start], by simp [start], by simp [start], by simp [start]⟩

theorem has_congr {l l' : Shared.St} {m : Nat} (h : l'.vars[m]? = l.vars[m]?) : Shared.Has l' m ↔ Shared.Has l m := by
  unfold Shared.Has
  rw [h]

theorem has_lt {l : Shared.St} {m : Nat} (h : Shared.Has l m) : m < l.vars.length := by
  obtain ⟨p, hp, _⟩ := h.get
  exact (List.getElem?_eq_some_iff.mp hp).1

/-- A step of the libraries' pointers that names no member. -/
theorem Inv.libStep {s : St} (h : Inv s) {o : Shared.Op} {l : Shared.St} (hp : Shared.pre s.libs o) (hn : ∀ m ∈ s.mem, m ∉ named o)
    (hs : Shared.step s.libs o = .ok l) : Inv { s with libs := l } := by
  obtain ⟨hle, hv, _⟩ := step_frame hs
  have hm : ∀ m ∈ s.mem, l.vars[m]? = s.libs.vars[m]? := fun m hm => hv m (hn m hm) (h.lt m hm)
  refine ⟨.step h.libs hp hs, h.slots, h.len, h.nodup, fun m hm => ?_, fun q m hq hc => ?_, fun q m hq hc => ?_⟩
  · have := h.lt m hm
    show m < l.vars.length
    omega
  · exact (has_congr (hm m (List.mem_of_getElem? hq))).mpr (h.alive q m hq hc)
  · show l.vars[m]? = _
    rw [hm m (List.mem_of_getElem? hq)]
    exact h.dead q m hq hc

/-- Copying or using a pointer changes no existing pointer. -/
theorem keeps {l l' : Shared.St} {o : Shared.Op} (ho : (∃ v, o = .copyCtor v) ∨ (∃ v, o = .deref v)) (hs : Shared.step l o = .ok l') {j : Nat}
    (hj : j < l.vars.length) : l'.vars[j]? = l.vars[j]? := by
  rcases ho with ⟨v, rfl⟩ | ⟨v, rfl⟩
  · cases e : l.vars[v]? with
    | none => simp [Shared.step, e] at hs
    | some p =>
      cases p with
      | ptr r =>
        by_cases hl : Live r l.log
        · simp [Shared.step, e, Shared.incr, hl] at hs
          subst hs
          exact List.getElem?_append_left hj
        · simp [Shared.step, e, Shared.incr, hl] at hs
      | _ => simp [Shared.step, e, Shared.incr] at hs
  · cases e : l.vars[v]? with
    | none => simp [Shared.step, e] at hs
    | some p =>
      cases p with
      | ptr r =>
        by_cases hl : Live r l.log
        · simp [Shared.step, e, hl] at hs
          subst hs
          rfl
        · simp [Shared.step, e, hl] at hs
      | _ => simp [Shared.step, e] at hs

/-- A step of the libraries' pointers that changes no existing pointer. -/
theorem Inv.libKeep {s : St} (h : Inv s) {o : Shared.Op} {l : Shared.St} (ho : (∃ v, o = .copyCtor v) ∨ (∃ v, o = .deref v))
    (hp : Shared.pre s.libs o) (hs : Shared.step s.libs o = .ok l) : Inv { s with libs := l } := by
  obtain ⟨hle, _, _⟩ := step_frame hs
  have hm : ∀ m ∈ s.mem, l.vars[m]? = s.libs.vars[m]? := fun m hm => keeps ho hs (h.lt m hm)
  refine ⟨.step h.libs hp hs, h.slots, h.len, h.nodup, fun m hm => ?_, fun q m hq hc => ?_, fun q m hq hc => ?_⟩
  · have := h.lt m hm
    show m < l.vars.length
    omega
  · exact (has_congr (hm m (List.mem_of_getElem? hq))).mpr (h.alive q m hq hc)
  · show l.vars[m]? = _
    rw [hm m (List.mem_of_getElem? hq)]
    exact h.dead q m hq hc

theorem member_spec {s : St} {i m : Nat} (h : member s i = some m) :
    ∃ q, s.slots.vars[i]? = some (.ptr q) ∧ Live q s.slots.log ∧ s.mem[q]? = some m := by
  unfold member at h
  cases e : s.slots.vars[i]? with
  | none => simp [e] at h
  | some p =>
    cases p with
    | ptr q =>
      by_cases hl : Live q s.slots.log
      · simp [e, hl] at h; exact ⟨q, rfl, hl, h⟩
      · simp [e, hl] at h
    | _ => simp [e] at h

/-- What passing a pointer does: the new pointer holds what the argument held, and the last place is new. -/
theorem passed_spec {l l' : Shared.St} {v : Nat} {copy : Bool} (h : passed l v copy = .ok l') :
    l'.vars.length = l.vars.length + 1 ∧ (∃ p, l'.vars[l.vars.length]? = some p ∧ p ≠ .gone) ∧
    ∀ j, j ≠ v → j < l.vars.length → l'.vars[j]? = l.vars[j]? := by
  have hf := step_frame h
  cases copy with
  | true =>
    simp only [passed, if_true] at h
    cases e : l.vars[v]? with
    | none => simp [Shared.step, e] at h
    | some p =>
      cases p with
      | ptr r =>
        by_cases hl : Live r l.log
        · simp [Shared.step, e, Shared.incr, hl] at h
          subst h
          refine ⟨by simp, ⟨.ptr r, by simp, by simp⟩, fun j _ hj => List.getElem?_append_left hj⟩
        · simp [Shared.step, e, Shared.incr, hl] at h
      | _ => simp [Shared.step, e, Shared.incr] at h
  | false =>
    simp only [passed, Bool.false_eq_true, if_false] at h
    refine ⟨?_, ?_, fun j hj hl => hf.2.1 j (by simpa [named] using hj) hl⟩
    · cases e : l.vars[v]? with
      | none => simp [Shared.step, e] at h
      | some p =>
        cases p with
        | null => simp [Shared.step, e] at h; subst h; simp
        | ptr r => simp [Shared.step, e] at h; subst h; simp
        | _ => simp [Shared.step, e] at h
    · cases e : l.vars[v]? with
      | none => simp [Shared.step, e] at h
      | some p =>
        cases p with
        | null => simp [Shared.step, e] at h; subst h; exact ⟨.null, by simp, by simp⟩
        | ptr r =>
          simp [Shared.step, e] at h
          subst h
          refine ⟨.ptr r, ?_, by simp⟩
          show (l.vars.set v .null ++ [Shared.Slot.ptr r])[l.vars.length]? = _
          rw [List.getElem?_append_right (by simp)]
          simp
        | _ => simp [Shared.step, e] at h

theorem pre_passed {l : Shared.St} {v : Nat} {copy : Bool} (hv : Shared.Has l v) (hc : copy = true → l.vars[v]? ≠ some .null)
    (hl : l.vars.length + 1 < Shared.M) : Shared.pre l (if copy then .copyCtor v else .moveCtor v) := by
  cases copy with
  | true => exact ⟨hv, hc rfl, hl⟩
  | false => exact ⟨hv, hl⟩

theorem Inv.step {s s' : St} (h : Inv s) (o : Op) (hp : pre s o) (hs : Life.step s o = .ok s') : Inv s' := by
  cases o with
  | lib o =>
    cases e : Shared.step s.libs o with
    | ok l =>
      simp [Life.step, e] at hs
      subst hs
      exact h.libStep hp.1 (fun m hm hn => hp.2 m hn hm) e
    | ub => simp [Life.step, e] at hs
    | loop => simp [Life.step, e] at hs
  | slot o =>
    have hp' : Shared.pre s.slots o ∧ ∀ b, o ≠ .create b := by
      cases o with
      | create b => exact absurd hp id
      | _ => exact ⟨hp, by simp⟩
    cases e : Shared.step s.slots o with
    | ok t =>
      obtain ⟨hnx, hcase⟩ := (step_frame e).2.2 hp'.2
      rcases hcase with ⟨hd, hiff⟩ | ⟨q, hd, hq, hlog⟩
      · simp [Life.step, e, hd] at hs
        subst hs
        refine ⟨h.libs, .step h.slots hp'.1 e, by rw [h.len]; exact hnx.symm, h.nodup, h.lt, fun q m hq hc => h.alive q m hq ?_,
          fun q m hq hc => h.dead q m hq ((hiff q).mp hc)⟩
        intro hc'
        exact hc ((hiff q).mpr hc')
      · cases em : s.mem[q]? with
        | none => simp [Life.step, e, hd, em] at hs
        | some m =>
          cases el : Shared.step s.libs (.drop m) with
          | ok l =>
            simp [Life.step, e, hd, em, el] at hs
            subst hs
            have hf := step_frame el
            have hhas := h.alive q m em hq.2
            have hgone : l.vars[m]? = some .gone := by
              cases ec : Shared.cleanVar s.libs m with
              | ok u =>
                simp [Shared.step, ec] at el
                subst el
                have := (cleanVar_frame ec).2.1
                have hlt := has_lt hhas
                show (u.vars.set m .gone)[m]? = _
                rw [List.getElem?_set_self (by omega)]
              | ub => simp [Shared.step, ec] at el
              | loop => simp [Shared.step, ec] at el
            have hother : ∀ q' m', s.mem[q']? = some m' → q' ≠ q → l.vars[m']? = s.libs.vars[m']? := by
              intro q' m' hq' hne
              refine hf.2.1 m' ?_ (h.lt m' (List.mem_of_getElem? hq'))
              intro hmem
              have hmm : m' = m := by simpa [named] using hmem
              subst hmm
              exact hne ((List.getElem?_inj (List.getElem?_eq_some_iff.mp hq').1 h.nodup).mp (hq'.trans em.symm))
            refine ⟨.step (o := .drop m) h.libs hhas el, .step h.slots hp'.1 e, by rw [h.len]; exact hnx.symm, h.nodup, fun m' hm' => ?_,
              fun q' m' hq' hc => ?_, fun q' m' hq' hc => ?_⟩
            · have := h.lt m' hm'
              show m' < l.vars.length
              omega
            · have hcq : .closed q' ∉ t.log := hc
              rw [hlog] at hcq
              have hne : q' ≠ q := by
                intro e
                subst e
                exact hcq (by simp)
              exact (has_congr (hother q' m' hq' hne)).mpr (h.alive q' m' hq' (fun hh => hcq (by simp [hh])))
            · show l.vars[m']? = _
              by_cases hne : q' = q
              · subst hne
                rw [em] at hq'
                injection hq' with hq'
                subst hq'
                exact hgone
              · have hcq : .closed q' ∈ t.log := hc
                rw [hlog] at hcq
                rw [hother q' m' hq' hne]
                exact h.dead q' m' hq' (by simpa [hne] using hcq)
          | ub => simp [Life.step, e, hd, em, el] at hs
          | loop => simp [Life.step, e, hd, em, el] at hs
    | ub => simp [Life.step, e] at hs
    | loop => simp [Life.step, e] at hs
  | makeSlot v copy alloc =>
    obtain ⟨hv, hvm, hnn, hl1, hl2⟩ := hp
    cases ep : passed s.libs v copy with
    | ok l =>
      obtain ⟨hlen, ⟨p, hpl, hpg⟩, hkeep⟩ := passed_spec ep
      have hlibs : Reach Shared.step Shared.pre Shared.init l := .step h.libs (pre_passed hv hnn hl1) ep
      have hm : ∀ m ∈ s.mem, l.vars[m]? = s.libs.vars[m]? := fun m hm =>
        hkeep m (fun e => hvm (e ▸ hm)) (h.lt m hm)
      have hhas : Shared.Has l s.libs.vars.length := by
        unfold Shared.Has
        rw [hpl]
        exact hpg
      cases alloc with
      | true =>
        simp [Life.step, ep, Shared.step] at hs
        subst hs
        refine ⟨hlibs, ?_, ?_, ?_, ?_, ?_, ?_⟩
        · exact .step (o := .create true) h.slots hl2 (by simp [Shared.step])
        · simp [h.len]
        · show (s.mem ++ [s.libs.vars.length]).Nodup
          rw [List.nodup_append]
          refine ⟨h.nodup, by simp, ?_⟩
          intro a ha b hb
          have := h.lt a ha
          simp at hb
          omega
        · intro m hm'
          show m < l.vars.length
          rcases List.mem_append.mp hm' with h' | h'
          · have := h.lt m h'
            omega
          · simp at h'
            omega
        · intro q m hq hc
          have hcq : .closed q ∉ s.slots.log := fun hh => hc (by simp [hh])
          show Shared.Has l m
          by_cases hql : q < s.mem.length
          · have hq' : (s.mem ++ [s.libs.vars.length])[q]? = some m := hq
            rw [List.getElem?_append_left hql] at hq'
            exact (has_congr (hm m (List.mem_of_getElem? hq'))).mpr (h.alive q m hq' hcq)
          · have hq' : (s.mem ++ [s.libs.vars.length])[q]? = some m := hq
            rw [List.getElem?_append_right (by omega)] at hq'
            have : m = s.libs.vars.length := by
              have := List.mem_of_getElem? hq'
              simpa using this
            subst this
            exact hhas
        · intro q m hq hc
          have hcq : .closed q ∈ s.slots.log := by simpa using hc
          show l.vars[m]? = _
          have hmade := (Shared.reach_inv h.slots).fresh q (closed_made (Shared.reach_inv h.slots).proper hcq)
          have hql : q < s.mem.length := by rw [h.len]; exact hmade
          have hq' : (s.mem ++ [s.libs.vars.length])[q]? = some m := hq
          rw [List.getElem?_append_left hql] at hq'
          rw [hm m (List.mem_of_getElem? hq')]
          exact h.dead q m hq' hcq
      | false =>
        cases ed : Shared.step l (.drop s.libs.vars.length) with
        | ok l' =>
          simp [Life.step, ep, Shared.step] at hs
          have hs2 : s' = ⟨l', { s.slots with vars := s.slots.vars ++ [.null] }, s.mem⟩ := by
            have ed' := ed
            simp only [Shared.step] at ed'
            rw [ed'] at hs
            injection hs with hs
            exact hs.symm
          subst hs2
          have hf := step_frame ed
          have hm' : ∀ m ∈ s.mem, l'.vars[m]? = s.libs.vars[m]? := by
            intro m hmm
            have := h.lt m hmm
            rw [hf.2.1 m (by simp [named]; omega) (by omega), hm m hmm]
          refine ⟨.step (o := .drop s.libs.vars.length) hlibs hhas ed, .step (o := .create false) h.slots hl2 (by simp [Shared.step]), h.len, h.nodup, fun m hmm => ?_,
            fun q m hq hc => ?_, fun q m hq hc => ?_⟩
          · have := h.lt m hmm
            show m < l'.vars.length
            omega
          · exact (has_congr (hm' m (List.mem_of_getElem? hq))).mpr (h.alive q m hq hc)
          · show l'.vars[m]? = _
            rw [hm' m (List.mem_of_getElem? hq)]
            exact h.dead q m hq hc
        | ub => simp only [Shared.step] at ed; simp [Life.step, ep, Shared.step, ed] at hs
        | loop => simp only [Shared.step] at ed; simp [Life.step, ep, Shared.step, ed] at hs
    | ub => cases alloc <;> simp [Life.step, ep] at hs
    | loop => cases alloc <;> simp [Life.step, ep] at hs
  | look i =>
    cases em : member s i with
    | none => simp [Life.step, em] at hs
    | some m =>
      obtain ⟨q, _, hq, hmq⟩ := member_spec em
      cases e : Shared.step s.libs (.copyCtor m) with
      | ok l =>
        simp [Life.step, em, e] at hs
        subst hs
        refine h.libKeep (Or.inl ⟨m, rfl⟩) ⟨h.alive q m hmq hq.2, ?_, hp.2.2⟩ e
        intro hn
        simp [Shared.step, hn, Shared.incr] at e
      | ub => simp [Life.step, em, e] at hs
      | loop => simp [Life.step, em, e] at hs
  | use i =>
    cases em : member s i with
    | none => simp [Life.step, em] at hs
    | some m =>
      obtain ⟨q, _, hq, hmq⟩ := member_spec em
      cases e : Shared.step s.libs (.deref m) with
      | ok l =>
        simp [Life.step, em, e] at hs
        subst hs
        refine h.libKeep (Or.inr ⟨m, rfl⟩) ⟨h.alive q m hmq hq.2, ?_⟩ e
        intro hn
        simp [Shared.step, hn] at e
      | ub => simp [Life.step, em, e] at hs
      | loop => simp [Life.step, em, e] at hs

/-- Objects are numbered in the order in which they are made. -/
theorem made_of_lt {s : Shared.St} (h : Reach Shared.step Shared.pre Shared.init s) {q : Nat} (hq : q < s.next) : .made q ∈ s.log := by
  refine Reach.inv (P := fun s : Shared.St => ∀ q, q < s.next → .made q ∈ s.log) ?_ ?_ h q hq
  · intro q hq
    exact absurd hq (Nat.not_lt_zero q)
  · intro s o s' ih hp hs q hq
    by_cases ho : ∃ b, o = .create b
    · obtain ⟨b, rfl⟩ := ho
      cases b with
      | true =>
        simp [Shared.step] at hs
        subst hs
        have hq' : q < s.next + 1 := hq
        by_cases e : q = s.next
        · subst e; simp
        · have := ih q (by omega)
          simp [this]
      | false =>
        simp [Shared.step] at hs
        subst hs
        exact ih q hq
    · have hn : ∀ b, o ≠ .create b := fun b e => ho ⟨b, e⟩
      obtain ⟨hnx, hc⟩ := (step_frame hs).2.2 hn
      rw [hnx] at hq
      have := ih q hq
      exact made_kept hs this

theorem reach_inv {s : St} (h : Reach Life.step pre start s) : Inv s :=
  Reach.inv inv_start (fun _ o _ hi hp hs => hi.step o hp hs) h

end Flame.Pkcs11.Life

namespace Flame
open Own Pkcs11

/-- **C165 fails.** In every execution the module of a library is finalised only while one pointer or slot still refers to the library. -/
theorem C165_finalised_while_referred {s : Life.St} (h : Reach Life.step Life.pre Life.start s) {r : Nat} (hc : .closed r ∈ s.libs.log) :
    Life.refs s r = 1 := C30_destroyed_while_owned (Life.reach_inv h).libs hc

/-- **C165 fails.** In every execution the module of a library to which nothing refers any more has not been finalised, nor has a slot to which
nothing refers been destroyed. -/
theorem C165_never_finalised {s : Life.St} (h : Reach Life.step Life.pre Life.start s) {r : Nat} :
    (Life.refs s r = 0 → .closed r ∉ s.libs.log) ∧ (s.slots.vars.count (.ptr r) = 0 → .closed r ∉ s.slots.log) :=
  ⟨fun h0 => C30_unowned_never_destroyed (Life.reach_inv h).libs h0, fun h0 => C30_unowned_never_destroyed (Life.reach_inv h).slots h0⟩

/-- What `refs` counts: a place holding a pointer to the library is a variable of the program or the member of a slot that exists. -/
theorem C165_refs_meaning {s : Life.St} (h : Reach Life.step Life.pre Life.start s) {v r : Nat} (hv : s.libs.vars[v]? = some (.ptr r)) :
    v ∉ s.mem ∨ ∃ q, s.mem[q]? = some v ∧ Live q s.slots.log := by
  by_cases hm : v ∈ s.mem
  · obtain ⟨q, hq⟩ := List.mem_iff_getElem?.mp hm
    refine Or.inr ⟨q, hq, ?_⟩
    have hinv := Life.reach_inv h
    have hc : .closed q ∉ s.slots.log := by
      intro hc
      have := hinv.dead q v hq hc
      rw [hv] at this
      cases this
    have hql : q < s.slots.next := by rw [← hinv.len]; exact (List.getElem?_eq_some_iff.mp hq).1
    exact ⟨Life.made_of_lt hinv.slots hql, hc⟩
  · exact Or.inl hm

/-- **C165 fails.** Looking at a slot's library ends it: if the slot is all that refers to the library (the program moved its pointer into
`Slot::create`), then after `auto library = slot->getLibrary();` and the end of that variable's scope the module is finalised, and the next call
on the slot is undefined. -/
theorem C165_look_violated {s : Life.St} (h : Reach Life.step Life.pre Life.start s) {i m r : Nat} (hm : Life.member s i = some m)
    (hr : s.libs.vars[m]? = some (.ptr r)) (hup : Life.Up s r) (h1 : Life.refs s r = 1) :
    ∃ s', runOps Life.step s [.look i, .lib (.drop s.libs.vars.length)] = .ok s' ∧ ¬ Life.Up s' r ∧ Life.step s' (.use i) = .ub ∧
      Life.step s' (.look i) = .ub := by
  have hinv := Life.reach_inv h
  obtain ⟨q, hq, hlq, hmq⟩ := Life.member_spec hm
  have hlive : Live r s.libs.log := hup
  have hsh := Shared.reach_inv hinv.libs
  have hmod := hsh.count r hlive
  have hcl := hsh.cntLt r
  have hM := Shared.M_gt
  have h1' : Shared.owners s.libs r = 1 := h1
  have hcnt : s.libs.cnt r = 0 := by
    rcases Nat.lt_or_ge (s.libs.cnt r + 1) Shared.M with h' | h'
    · rw [Nat.mod_eq_of_lt h'] at hmod; omega
    · have : s.libs.cnt r + 1 = Shared.M := by omega
      rw [this, Nat.mod_self] at hmod; omega
  have e1 : 1 % Shared.M = 1 := Nat.mod_eq_of_lt (by omega)
  have e2 : (1 + (Shared.M - 1)) % Shared.M = 0 := by
    have : 1 + (Shared.M - 1) = Shared.M := by omega
    rw [this, Nat.mod_self]
  have hlt : m < s.libs.vars.length := (List.getElem?_eq_some_iff.mp hr).1
  have hml : (s.libs.vars ++ [Shared.Slot.gone])[m]? = some (.ptr r) := by rw [List.getElem?_append_left hlt]; exact hr
  refine ⟨⟨{ s.libs with
    vars := s.libs.vars ++ [.gone]
    cnt := upd (upd s.libs.cnt r 1) r 0
    log := .closed r :: s.libs.log }, s.slots, s.mem⟩, ?_, ?_, ?_, ?_⟩
  · simp [runOps, Life.step, hm, Shared.step, hr, Shared.incr, hlive, hcnt, e1, Shared.cleanVar, e2]
  · simp [Life.Up]
  · simp only [Life.step, Life.member, hq, if_pos hlq, hmq]
    simp [Shared.step, hml, Live]
  · simp only [Life.step, Life.member, hq, if_pos hlq, hmq]
    simp [Shared.step, hml, Shared.incr, Live]

/-- **C165 fails.** The only pointer to a slot goes away: the slot is not destroyed and still refers to its library, whose module therefore stays as it was. -/
theorem C165_slot_dropped {s : Life.St} (h : Reach Life.step Life.pre Life.start s) {i m : Nat} (hm : Life.member s i = some m) {q : Nat}
    (hq : s.slots.vars[i]? = some (.ptr q)) (h1 : s.slots.vars.count (.ptr q) = 1) :
    ∃ s', Life.step s (.slot (.drop i)) = .ok s' ∧ s'.slots.vars.count (.ptr q) = 0 ∧ Live q s'.slots.log ∧ s'.libs = s.libs := by
  have hinv := Life.reach_inv h
  obtain ⟨q', hq', hlq, hmq⟩ := Life.member_spec hm
  have : q' = q := by rw [hq] at hq'; injection hq' with hq'; injection hq' with hq'; exact hq'.symm
  subst this
  obtain ⟨t, ht, hl, h0⟩ := C30_sole_owner_leaks hinv.slots hq h1 hlq
  have hf := (Life.step_frame ht).2.2 (by simp)
  rcases hf.2 with ⟨hd, _⟩ | ⟨q, hd, hql, hlog⟩
  · exact ⟨{ s with slots := t }, by simp only [Life.step, ht, hd], h0, hl, rfl⟩
  · -- it would be another slot, but dropping this pointer touches only this one's counter
    exfalso
    have hz : ¬ (s.slots.cnt q' + (Shared.M - 1)) % Shared.M = 0 := fun e => by
      have := (Shared.dec_mod ((Shared.reach_inv hinv.slots).count q' hlq) ((Shared.reach_inv hinv.slots).cntLt q') (by
        have : Shared.owners s.slots q' = 1 := h1
        omega)).2.mp e
      have : Shared.owners s.slots q' = 1 := h1
      omega
    simp [Shared.step, Shared.cleanVar, hq, hlq, hz] at ht
    subst ht
    have := congrArg List.length hlog
    simp at this

/-- **C165, the part that holds.** In every execution a library with at least two references exists and its module is initialised, and so is a slot
with at least two pointers; calls on such a slot are then defined. -/
theorem C165_alive_partial {s : Life.St} (h : Reach Life.step Life.pre Life.start s) {i q m r : Nat} (hq : s.slots.vars[i]? = some (.ptr q))
    (h2 : 2 ≤ s.slots.vars.count (.ptr q)) (hm : s.mem[q]? = some m) (hr : s.libs.vars[m]? = some (.ptr r)) (h2' : 2 ≤ Life.refs s r) :
    Live q s.slots.log ∧ Life.Up s r ∧ ∃ s', Life.step s (.use i) = .ok s' := by
  have hinv := Life.reach_inv h
  have hl := (C30_shared_alive_partial hinv.slots hq h2).1
  obtain ⟨hlr, ⟨l, he⟩, _⟩ := C30_shared_alive_partial hinv.libs hr h2'
  refine ⟨hl, hlr, { s with libs := l }, ?_⟩
  simp only [Life.step, Life.member, hq, if_pos hl, hm, he]

/-- C165: a call on a slot is defined exactly while the slot and its library exist. -/
theorem C165_use_exact {s : Life.St} {i : Nat} :
    (∃ s', Life.step s (.use i) = .ok s') ↔ ∃ q m r, s.slots.vars[i]? = some (.ptr q) ∧ Live q s.slots.log ∧ s.mem[q]? = some m ∧
      s.libs.vars[m]? = some (.ptr r) ∧ Life.Up s r := by
  constructor
  · rintro ⟨s', hs⟩
    cases em : Life.member s i with
    | none => simp [Life.step, em] at hs
    | some m =>
      obtain ⟨q, hq, hl, hm⟩ := Life.member_spec em
      have : ∃ l, Shared.step s.libs (.deref m) = .ok l := by
        cases e : Shared.step s.libs (.deref m) with
        | ok l => exact ⟨l, rfl⟩
        | ub => simp [Life.step, em, e] at hs
        | loop => simp [Life.step, em, e] at hs
      obtain ⟨r, hr, hlr⟩ := (C30_deref_iff s.libs m).mp this
      exact ⟨q, m, r, hq, hl, hm, hr, hlr⟩
  · rintro ⟨q, m, r, hq, hl, hm, hr, hup⟩
    obtain ⟨l, he⟩ := (C30_deref_iff s.libs m).mpr ⟨r, hr, hup⟩
    exact ⟨{ s with libs := l }, by simp only [Life.step, Life.member, hq, if_pos hl, hm, he]⟩

/-- A library moved into a slot: the situation of `C165_look_violated`. -/
example : ∃ s, Reach Life.step Life.pre Life.start s ∧
    (Life.member s 0, s.libs.vars, Life.refs s 0, s.libs.log) = (some 1, [.null, .ptr 0], 1, [.made 0]) :=
  Reach.witness [.lib (.create true), .makeSlot 0 false true] _ _ (by decide +kernel)

/-- … and what looking does. -/
example : ∃ s, Reach Life.step Life.pre Life.start s ∧ (s.libs.vars, s.libs.log) = ([.null, .ptr 0, .gone], [.closed 0, .made 0]) :=
  Reach.witness [.lib (.create true), .makeSlot 0 false true, .look 0, .lib (.drop 2)] _ _ (by decide +kernel)

/-- Two pointers to a slot, one of them dropped: the slot is destroyed, and with it one of three references to the library. -/
example : ∃ s, Reach Life.step Life.pre Life.start s ∧
    (s.slots.vars, s.slots.log, s.libs.vars, s.libs.log) = ([.ptr 0, .gone], [.closed 0, .made 0], [.ptr 0, .gone, .ptr 0], [.made 0]) :=
  Reach.witness [.lib (.create true), .makeSlot 0 true true, .look 0, .slot (.copyCtor 0), .slot (.drop 1)] _ _ (by decide +kernel)

/-- The situation of `C165_alive_partial`. -/
example : ∃ s, Reach Life.step Life.pre Life.start s ∧
    (s.slots.vars, s.mem, s.libs.vars, s.libs.log) = ([.ptr 0, .ptr 0], [1], [.ptr 0, .ptr 0], [.used 0, .made 0]) :=
  Reach.witness [.lib (.create true), .makeSlot 0 true true, .slot (.copyCtor 0), .use 1] _ _ (by decide +kernel)

namespace Flame
open Own Pkcs11
private abbrev libOps : List Life.Op := [.lib (.create true), .makeSlot 0 true true]
example := C165_finalised_while_referred
  (.visit ([.lib (.create true), .makeSlot 0 false true, .look 0, .lib (.drop 2)] : List Life.Op) (by decide +kernel)) (r := 0) (by decide +kernel)
example := C165_never_finalised (.visit libOps (by decide +kernel)) (r := 0)
example := C165_refs_meaning (.visit libOps (by decide +kernel)) (v := 1) (r := 0) (by decide +kernel)
example := C165_look_violated (.visit ([.lib (.create true), .makeSlot 0 false true] : List Life.Op) (by decide +kernel)) (i := 0) (m := 1) (r := 0)
  (by decide +kernel) (by decide +kernel) (by unfold Life.Up; decide +kernel) (by decide +kernel)
example := C165_slot_dropped (.visit libOps (by decide +kernel)) (i := 0) (m := 1) (by decide +kernel) (q := 0) (by decide +kernel) (by decide +kernel)
example := C165_alive_partial (.visit ([.lib (.create true), .makeSlot 0 true true, .slot (.copyCtor 0)] : List Life.Op) (by decide +kernel)) (i := 1)
  (q := 0) (m := 1) (r := 0) (by decide +kernel) (by decide +kernel) (by decide +kernel) (by decide +kernel) (by decide +kernel)
end Flame

end Flame
