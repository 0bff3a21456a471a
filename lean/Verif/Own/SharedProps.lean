import Verif.Own.Shared

/-! # C30: when a `SharedPointer` destroys the object

The counter starts at 0 for the first owner, so it is always one less than the number of owners. -/

namespace Flame.Own.Shared

/-- Invariant of all executions. -/
structure Inv (s : St) : Prop where
  len : s.vars.length < M
  fresh : ∀ r, .made r ∈ s.log → r < s.next
  proper : Proper s.log
  ptrMade : ∀ r, 0 < owners s r → .made r ∈ s.log
  /-- as long as the object exists, counter + 1 = number of owners (modulo 2^64) -/
  count : ∀ r, Live r s.log → (s.cnt r + 1) % M = owners s r
  cntLt : ∀ r, s.cnt r < M
  /-- a destroyed object still has exactly one owner -/
  dead : ∀ r, .closed r ∈ s.log → owners s r = 1

theorem M_pos : 0 < M := by unfold M; exact Nat.two_pow_pos 64
theorem M_gt : 2 < M := by unfold M; decide

theorem inv_init : Inv init :=
  ⟨by simp [init]; exact M_pos, by simp [init], trivial, by simp [init, owners], by simp [init, Live],
    by intro; exact M_pos, by simp [init]⟩

theorem owners_le {s : St} (r : Nat) : owners s r ≤ s.vars.length := List.count_le_length

theorem count_set' {l : List Slot} {i : Nat} {p a : Slot} (h : l[i]? = some p) (b : Slot) :
    (l.set i a).count b + (if p = b then 1 else 0) = l.count b + (if a = b then 1 else 0) := by
  obtain ⟨hi, hp⟩ := List.getElem?_eq_some_iff.mp h
  rw [List.count_set hi, hp]
  have : p = b → 1 ≤ l.count b := by
    intro e
    subst e
    exact List.count_pos_iff.mpr (hp ▸ List.getElem_mem hi)
  simp only [beq_iff_eq]
  split
  · rename_i hpb
    have := this hpb
    omega
  · omega

/-- Counter arithmetic of a decrement. -/
theorem dec_mod {c n : Nat} (h : (c + 1) % M = n) (hc : c < M) (hn : 1 ≤ n) :
    ((c + (M - 1)) % M + 1) % M = n - 1 ∧ ((c + (M - 1)) % M = 0 ↔ n = 2) := by
  have hM := M_gt
  have hcm : c + 1 < M := by
    rcases Nat.lt_or_ge (c + 1) M with h' | h'
    · exact h'
    · have : c + 1 = M := by omega
      rw [this, Nat.mod_self] at h
      omega
  rw [Nat.mod_eq_of_lt hcm] at h
  subst h
  cases c with
  | zero =>
    rw [Nat.zero_add, Nat.mod_eq_of_lt (a := M - 1) (by omega), Nat.sub_add_cancel (by omega), Nat.mod_self]
    omega
  | succ k =>
    have e : k + 1 + (M - 1) = k + M := by omega
    rw [e, Nat.add_mod_right, Nat.mod_eq_of_lt (a := k) (by omega), Nat.mod_eq_of_lt (a := k + 1) (by omega)]
    omega

/-- Rearranging the pointers without changing the number of owners of any object. -/
theorem Inv.perm {s : St} (h : Inv s) {l : List Slot} (hlen : l.length < M)
    (hc : ∀ r, l.count (.ptr r) = owners s r) : Inv { s with vars := l } :=
  ⟨hlen, h.fresh, h.proper, fun r hr => h.ptrMade r (by rw [← hc r]; exact hr),
    fun r hr => by rw [h.count r hr, ← hc r]; rfl, h.cntLt, fun r hr => by rw [← h.dead r hr, ← hc r]; rfl⟩

/-- One more owner of an existing object. -/
theorem Inv.share {s : St} (h : Inv s) {l : List Slot} {r : Nat} (hlive : Live r s.log) (hlen : l.length < M)
    (hc : ∀ q, l.count (.ptr q) = owners s q + if q = r then 1 else 0) :
    Inv { s with vars := l, cnt := upd s.cnt r ((s.cnt r + 1) % M) } := by
  refine ⟨hlen, h.fresh, h.proper, ?_, ?_, ?_, ?_⟩
  · intro q hq
    by_cases hqr : q = r
    · subst hqr; exact hlive.1
    · have : l.count (.ptr q) = owners s q := by rw [hc q, if_neg hqr]; rfl
      exact h.ptrMade q (by rw [← this]; exact hq)
  · intro q hq
    show (upd s.cnt r ((s.cnt r + 1) % M) q + 1) % M = l.count (.ptr q)
    by_cases hqr : q = r
    · subst hqr
      rw [upd_self, h.count q hlive, hc q, if_pos rfl]
      refine Nat.mod_eq_of_lt ?_
      have := hc q
      rw [if_pos rfl] at this
      have h2 : l.count (Slot.ptr q) ≤ l.length := List.count_le_length
      omega
    · rw [upd_ne _ _ hqr, h.count q hq, hc q, if_neg hqr]
      rfl
  · intro q
    show upd s.cnt r ((s.cnt r + 1) % M) q < M
    by_cases hqr : q = r
    · subst hqr; rw [upd_self]; exact Nat.mod_lt _ M_pos
    · rw [upd_ne _ _ hqr]; exact h.cntLt q
  · intro q hq
    show l.count (.ptr q) = 1
    have hqr : q ≠ r := by intro e; subst e; exact hlive.2 hq
    rw [hc q, if_neg hqr, h.dead q hq]

/-- What `clean` did, once the variable no longer points at the object. -/
theorem cleanVar_cases {s s₁ : St} (h : Inv s) {i : Nat} {a : Slot} (ha : ∀ r, a ≠ .ptr r)
    (hs : cleanVar s i = .ok s₁) :
    Inv { s₁ with vars := s₁.vars.set i a } ∧ s₁.vars.length = s.vars.length ∧
      (∀ j, j ≠ i → s₁.vars[j]? = s.vars[j]?) ∧
      (∀ q, .made q ∈ s₁.log ↔ .made q ∈ s.log) := by
  unfold cleanVar at hs
  split at hs
  · rename_i hi
    injection hs with hs
    subst hs
    refine ⟨?_, rfl, fun _ _ => rfl, fun _ => Iff.rfl⟩
    refine h.perm (by rw [List.length_set]; exact h.len) ?_
    intro r
    have := count_set' (a := a) hi (.ptr r)
    rw [if_neg (by simp), if_neg (ha r)] at this
    simpa [owners] using this
  · rename_i r hi
    split at hs
    · rename_i hlive
      have hown : 1 ≤ owners s r := List.count_pos_iff.mpr (List.mem_of_getElem? hi)
      obtain ⟨hd1, hd2⟩ := dec_mod (h.count r hlive) (h.cntLt r) hown
      have hcs : ∀ b q, (∀ r, b ≠ .ptr r) → (s.vars.set i b).count (.ptr q) + (if q = r then 1 else 0) = owners s q := by
        intro b q hb
        have := count_set' (a := b) hi (.ptr q)
        rw [if_neg (hb q)] at this
        by_cases hqr : q = r
        · subst hqr
          rw [if_pos rfl] at this
          rw [if_pos rfl]
          simpa [owners] using this
        · rw [if_neg (by intro e; injection e with e; exact hqr e.symm)] at this
          rw [if_neg hqr]
          simpa [owners] using this
      simp only at hs
      split at hs
      · rename_i hz
        injection hs with hs
        subst hs
        have h2 : owners s r = 2 := hd2.mp hz
        have hset : ((s.vars.set i .null).set i a) = s.vars.set i a := List.set_set ..
        refine ⟨?_, by simp, ?_, by intro q; simp⟩
        · show Inv ⟨(s.vars.set i .null).set i a, _, _, _⟩
          rw [hset]
          refine ⟨by rw [List.length_set]; exact h.len, ?_, ⟨hlive, h.proper⟩, ?_, ?_, ?_, ?_⟩
          · intro q hq
            exact h.fresh q (by simpa using hq)
          · intro q hq
            have : (s.vars.set i a).count (.ptr q) + (if q = r then 1 else 0) = owners s q := hcs a q ha
            have hq' : 0 < (s.vars.set i a).count (.ptr q) := hq
            exact List.mem_cons_of_mem _ (h.ptrMade q (by omega))
          · intro q hq
            have hqr : q ≠ r := by intro e; subst e; exact hq.2 (by simp)
            have hq' : Live q s.log := ⟨by simpa using hq.1, fun hc => hq.2 (List.mem_cons_of_mem _ hc)⟩
            show (upd s.cnt r _ q + 1) % M = (s.vars.set i a).count (.ptr q)
            rw [upd_ne _ _ hqr, h.count q hq', ← hcs a q ha, if_neg hqr]
            rfl
          · intro q
            show upd s.cnt r _ q < M
            by_cases hqr : q = r
            · subst hqr; rw [upd_self]; exact Nat.mod_lt _ M_pos
            · rw [upd_ne _ _ hqr]; exact h.cntLt q
          · intro q hq
            show (s.vars.set i a).count (.ptr q) = 1
            have := hcs a q ha
            by_cases hqr : q = r
            · subst hqr
              rw [if_pos rfl] at this
              omega
            · rw [if_neg hqr] at this
              have hq' : .closed q ∈ s.log := by
                rcases List.mem_cons.mp hq with e | e
                · injection e with e; exact absurd e hqr
                · exact e
              have := h.dead q hq'
              omega
        · intro j hj
          rw [List.getElem?_set_ne (fun e => hj e.symm)]
      · rename_i hz
        injection hs with hs
        subst hs
        have h2 : owners s r ≠ 2 := fun e => hz (hd2.mpr e)
        refine ⟨?_, rfl, fun _ _ => rfl, fun _ => Iff.rfl⟩
        refine ⟨by rw [List.length_set]; exact h.len, h.fresh, h.proper, ?_, ?_, ?_, ?_⟩
        · intro q hq
          have : (s.vars.set i a).count (.ptr q) + (if q = r then 1 else 0) = owners s q := hcs a q ha
          have hq' : 0 < (s.vars.set i a).count (.ptr q) := hq
          exact h.ptrMade q (by omega)
        · intro q hq
          show (upd s.cnt r _ q + 1) % M = (s.vars.set i a).count (.ptr q)
          have := hcs a q ha
          by_cases hqr : q = r
          · subst hqr
            rw [if_pos rfl] at this
            rw [upd_self, hd1]
            omega
          · rw [if_neg hqr] at this
            rw [upd_ne _ _ hqr, h.count q hq, ← this]
            rfl
        · intro q
          show upd s.cnt r _ q < M
          by_cases hqr : q = r
          · subst hqr; rw [upd_self]; exact Nat.mod_lt _ M_pos
          · rw [upd_ne _ _ hqr]; exact h.cntLt q
        · intro q hq
          show (s.vars.set i a).count (.ptr q) = 1
          have hqr : q ≠ r := by intro e; subst e; exact hlive.2 hq
          have := hcs a q ha
          rw [if_neg hqr] at this
          have := h.dead q hq
          omega
    · cases hs
  · cases hs

theorem count_append_ptr (l : List Slot) (r q : Nat) :
    (l ++ [Slot.ptr r]).count (.ptr q) = l.count (.ptr q) + if q = r then 1 else 0 := by
  rw [List.count_append]
  by_cases h : q = r
  · subst h; simp
  · rw [if_neg h, List.count_cons_of_ne (by intro e; injection e with e; exact h e.symm)]
    simp

theorem count_append_other (l : List Slot) {a : Slot} (ha : ∀ r, a ≠ .ptr r) (q : Nat) :
    (l ++ [a]).count (.ptr q) = l.count (.ptr q) := by
  rw [List.count_append, List.count_cons_of_ne (ha q)]
  simp

theorem step_inv {s s' : St} (h : Inv s) {o : Op} (hp : pre s o) (hs : step s o = .ok s') : Inv s' := by
  cases o with
  | defaultCtor => exact absurd hp id
  | clean i => exact absurd hp id
  | create alloc =>
    simp only [pre] at hp
    cases alloc with
    | false =>
      simp only [step, Bool.false_eq_true, if_false] at hs
      injection hs with hs
      subst hs
      exact h.perm (by simp; exact hp) (count_append_other s.vars (by simp))
    | true =>
      simp only [step, if_true] at hs
      injection hs with hs
      subst hs
      have h1 : .made s.next ∉ s.log := fun hm => Nat.lt_irrefl _ (h.fresh _ hm)
      have h2 : .closed s.next ∉ s.log := fun hc => h1 (closed_made h.proper hc)
      have h0 : owners s s.next = 0 := by
        rcases Nat.eq_zero_or_pos (owners s s.next) with e | e
        · exact e
        · exact absurd (h.ptrMade _ e) h1
      have hc : ∀ q, (s.vars ++ [Slot.ptr s.next]).count (.ptr q) = owners s q + if q = s.next then 1 else 0 :=
        count_append_ptr s.vars s.next
      refine ⟨by simp; exact hp, ?_, ⟨h1, h2, h.proper⟩, ?_, ?_, ?_, ?_⟩
      · intro r hr
        rcases List.mem_cons.mp hr with e | e
        · injection e with e; subst e; exact Nat.lt_succ_self _
        · exact Nat.lt_succ_of_lt (h.fresh r e)
      · intro q hq
        have hq' : 0 < (s.vars ++ [Slot.ptr s.next]).count (.ptr q) := hq
        rw [hc q] at hq'
        by_cases e : q = s.next
        · subst e; simp
        · rw [if_neg e] at hq'
          exact List.mem_cons_of_mem _ (h.ptrMade q (by omega))
      · intro q hq
        show (upd s.cnt s.next 0 q + 1) % M = (s.vars ++ [Slot.ptr s.next]).count (.ptr q)
        rw [hc q]
        by_cases e : q = s.next
        · subst e
          rw [upd_self, if_pos rfl, h0]
          exact Nat.mod_eq_of_lt (by have := M_gt; omega)
        · rw [upd_ne _ _ e, if_neg e]
          refine h.count q ⟨?_, fun hc => hq.2 (List.mem_cons_of_mem _ hc)⟩
          rcases List.mem_cons.mp hq.1 with e' | e'
          · injection e' with e'; exact absurd e' e
          · exact e'
      · intro q
        show upd s.cnt s.next 0 q < M
        by_cases e : q = s.next
        · subst e; rw [upd_self]; exact M_pos
        · rw [upd_ne _ _ e]; exact h.cntLt q
      · intro q hq
        show (s.vars ++ [Slot.ptr s.next]).count (.ptr q) = 1
        have hq' : .closed q ∈ s.log := by simpa using hq
        have e : q ≠ s.next := by intro e; subst e; exact h2 hq'
        rw [hc q, if_neg e, h.dead q hq']
  | copyCtor j =>
    obtain ⟨_, _, hlen⟩ := hp
    simp only [step] at hs
    cases hj : s.vars[j]? with
    | none => simp [hj] at hs
    | some p =>
      cases p with
      | ptr r =>
        by_cases hl : Live r s.log
        · simp [hj, incr, hl] at hs
          subst hs
          exact h.share hl (by simp; exact hlen) (count_append_ptr s.vars r)
        · simp [hj, incr, hl] at hs
      | gone => simp [hj, incr] at hs
      | indet => simp [hj, incr] at hs
      | null => simp [hj, incr] at hs
  | moveCtor j =>
    obtain ⟨_, hlen⟩ := hp
    simp only [step] at hs
    cases hj : s.vars[j]? with
    | none => simp [hj] at hs
    | some p =>
      cases p with
      | ptr r =>
        simp [hj] at hs
        subst hs
        refine h.perm (by simp; exact hlen) ?_
        intro q
        rw [count_append_ptr]
        have := count_set' (a := .null) hj (.ptr q)
        rw [if_neg (by simp : (Slot.null ≠ .ptr q))] at this
        by_cases e : q = r
        · subst e
          rw [if_pos rfl] at this
          rw [if_pos rfl]
          simpa [owners] using this
        · rw [if_neg (by intro h'; injection h' with h'; exact e h'.symm)] at this
          rw [if_neg e]
          simpa [owners] using this
      | gone => simp [hj] at hs
      | indet => simp [hj] at hs
      | null =>
        simp [hj] at hs
        subst hs
        exact h.perm (by simp; exact hlen) (count_append_other s.vars (by simp))
  | copyAssign i j =>
    obtain ⟨hhi, _, _, hij⟩ := hp
    obtain ⟨pi, hi, _⟩ := hhi.get
    simp only [step] at hs
    cases hc : cleanVar s i with
    | ub => simp [hc] at hs
    | loop => simp [hc] at hs
    | ok s₁ =>
      obtain ⟨h1, hlen, hget, _⟩ := cleanVar_cases h (a := .null) (by simp) hc
      simp only [hc] at hs
      cases hj : s₁.vars[j]? with
      | none => simp [hj] at hs
      | some p =>
        cases p with
        | ptr r =>
          by_cases hl : Live r s₁.log
          · simp [hj, incr, hl] at hs
            subst hs
            have hi1 : i < s₁.vars.length := by
              rw [hlen]; exact (List.getElem?_eq_some_iff.mp hi).1
            have := h1.share (l := s₁.vars.set i (.ptr r)) (r := r) hl (by rw [List.length_set, hlen]; exact h.len) ?_
            · exact this
            · intro q
              have e := count_set' (l := s₁.vars.set i .null) (i := i) (p := .null) (a := .ptr r)
                (by rw [List.getElem?_set_self hi1]) (.ptr q)
              rw [List.set_set, if_neg (by simp)] at e
              show _ = (s₁.vars.set i .null).count _ + _
              by_cases hqr : q = r
              · subst hqr; rw [if_pos rfl] at e ⊢; simpa using e
              · rw [if_neg (by intro h'; injection h' with h'; exact hqr h'.symm)] at e
                rw [if_neg hqr]; simpa using e
          · simp [hj, incr, hl] at hs
        | gone => simp [hj, incr] at hs
        | indet => simp [hj, incr] at hs
        | null => simp [hj, incr] at hs
  | moveAssign i j =>
    obtain ⟨hhi, _, hij⟩ := hp
    obtain ⟨pi, hi, _⟩ := hhi.get
    simp only [step] at hs
    cases hc : cleanVar s i with
    | ub => simp [hc] at hs
    | loop => simp [hc] at hs
    | ok s₁ =>
      obtain ⟨h1, hlen, hget, _⟩ := cleanVar_cases h (a := .null) (by simp) hc
      simp only [hc] at hs
      have hi1 : i < s₁.vars.length := by
        rw [hlen]; exact (List.getElem?_eq_some_iff.mp hi).1
      cases hj : s₁.vars[j]? with
      | none => simp [hj] at hs
      | some p =>
        have hj' : (s₁.vars.set i .null)[j]? = some p := by
          rw [List.getElem?_set_ne hij]; exact hj
        cases p with
        | ptr r =>
          simp [hj] at hs
          subst hs
          refine h1.perm (l := (s₁.vars.set i (.ptr r)).set j .null)
            (by rw [List.length_set, List.length_set, hlen]; exact h.len) ?_
          intro q
          have e1 := count_set' (l := s₁.vars.set i .null) (i := i) (p := .null) (a := .ptr r)
                (by rw [List.getElem?_set_self hi1]) (.ptr q)
          rw [List.set_set, if_neg (by simp)] at e1
          have e2 := count_set' (l := s₁.vars.set i (.ptr r)) (i := j) (p := .ptr r) (a := .null)
            (by rw [List.getElem?_set_ne hij]; exact hj) (.ptr q)
          rw [if_neg (by simp : Slot.null ≠ .ptr q)] at e2
          show _ = (s₁.vars.set i .null).count _
          omega
        | gone => simp [hj] at hs
        | indet => simp [hj] at hs
        | null =>
          simp [hj] at hs
          subst hs
          refine h1.perm (l := (s₁.vars.set i .null).set j .null)
            (by rw [List.length_set, List.length_set, hlen]; exact h.len) ?_
          intro q
          have e2 := count_set' (a := .null) hj' (.ptr q)
          rw [if_neg (by simp)] at e2
          show _ = (s₁.vars.set i .null).count _
          omega
  | drop i =>
    simp only [step] at hs
    cases hc : cleanVar s i with
    | ub => simp [hc] at hs
    | loop => simp [hc] at hs
    | ok s₁ =>
      simp [hc] at hs
      subst hs
      exact (cleanVar_cases h (a := .gone) (by simp) hc).1
  | deref i =>
    simp only [step] at hs
    split at hs
    rotate_left
    · cases hs
    rename_i r hr
    by_cases hl : Live r s.log
    · simp [hl] at hs
      subst hs
      refine ⟨h.len, ?_, ⟨hl, h.proper⟩, ?_, ?_, h.cntLt, ?_⟩
      · intro q hq; exact h.fresh q (by simpa using hq)
      · intro q hq; exact List.mem_cons_of_mem _ (h.ptrMade q hq)
      · intro q hq; exact h.count q ⟨by simpa using hq.1, by simpa using hq.2⟩
      · intro q hq; exact h.dead q (by simpa using hq)
    · simp [hl] at hs

theorem reach_inv {s : St} (h : Reach step pre init s) : Inv s := h.inv inv_init (fun _ _ _ hi hp he => step_inv hi hp he)

end Flame.Own.Shared

namespace Flame
open Own

/-- **C30 fails.** In every execution an object is destroyed only while a pointer still owns it: whenever an
object has been destroyed, exactly one owner is left, and it is dangling. -/
theorem C30_destroyed_while_owned {s : Shared.St} (h : Reach Shared.step Shared.pre Shared.init s) {r : Nat}
    (hc : .closed r ∈ s.log) : Shared.owners s r = 1 := (Shared.reach_inv h).dead r hc

/-- **C30 fails.** In every execution an object whose last owner is gone has not been destroyed: it leaks. -/
theorem C30_unowned_never_destroyed {s : Shared.St} (h : Reach Shared.step Shared.pre Shared.init s) {r : Nat}
    (ho : Shared.owners s r = 0) : .closed r ∉ s.log := by
  intro hc
  have := C30_destroyed_while_owned h hc
  omega

/-- Dropping one of two owners destroys the object the other one still points at. -/
theorem C30_drop_second_owner {s : Shared.St} (h : Reach Shared.step Shared.pre Shared.init s) {i r : Nat}
    (hi : s.vars[i]? = some (.ptr r)) (hl : Live r s.log) (h2 : Shared.owners s r = 2) :
    ∃ s', Shared.step s (.drop i) = .ok s' ∧ .closed r ∈ s'.log ∧ Shared.owners s' r = 1 := by
  have hinv := Shared.reach_inv h
  have hz : (s.cnt r + (Shared.M - 1)) % Shared.M = 0 :=
    (Shared.dec_mod (hinv.count r hl) (hinv.cntLt r) (by omega)).2.mpr h2
  have hs : Shared.step s (.drop i) = .ok { s with
      vars := (s.vars.set i .null).set i .gone
      cnt := upd s.cnt r ((s.cnt r + (Shared.M - 1)) % Shared.M)
      log := .closed r :: s.log } := by
    simp [Shared.step, Shared.cleanVar, hi, hl, hz]
  refine ⟨_, hs, by simp, ?_⟩
  refine C30_destroyed_while_owned (.step h ?_ hs) (by simp)
  simp [Shared.pre, Shared.Has, hi]

/-- After that, whatever is done through the remaining owner — using it, copying it, destroying it — is
undefined. -/
theorem C30_dangling_ub {s : Shared.St} {i r : Nat} (hi : s.vars[i]? = some (.ptr r)) (hc : .closed r ∈ s.log) :
    Shared.step s (.deref i) = .ub ∧ Shared.step s (.drop i) = .ub ∧ Shared.step s (.copyCtor i) = .ub := by
  have hl : ¬ Live r s.log := fun h => h.2 hc
  simp [Shared.step, Shared.cleanVar, Shared.incr, hi, hl]

/-- Dropping the only owner never destroys the object (the counter wraps to 2^64 − 1). -/
theorem C30_sole_owner_leaks {s : Shared.St} (h : Reach Shared.step Shared.pre Shared.init s) {i r : Nat}
    (hi : s.vars[i]? = some (.ptr r)) (h1 : Shared.owners s r = 1) (hl : Live r s.log) :
    ∃ s', Shared.step s (.drop i) = .ok s' ∧ Live r s'.log ∧ Shared.owners s' r = 0 := by
  have hinv := Shared.reach_inv h
  have hz : ¬ (s.cnt r + (Shared.M - 1)) % Shared.M = 0 := fun e => by
    have := (Shared.dec_mod (hinv.count r hl) (hinv.cntLt r) (by omega)).2.mp e
    omega
  refine ⟨{ s with vars := s.vars.set i .gone, cnt := upd s.cnt r ((s.cnt r + (Shared.M - 1)) % Shared.M) },
    by simp [Shared.step, Shared.cleanVar, hi, hl, hz], hl, ?_⟩
  have := Shared.count_set' (a := .gone) hi (.ptr r)
  rw [if_pos rfl, if_neg (by simp)] at this
  have e : s.vars.count (Shared.Slot.ptr r) = 1 := h1
  show (s.vars.set i .gone).count (.ptr r) = 0
  omega

/-- **C30, the part that holds.** In every execution an object with at least two owners exists, and using it
through any of them is defined; an existing object keeps existing when one of three or more owners goes away. -/
theorem C30_shared_alive_partial {s : Shared.St} (h : Reach Shared.step Shared.pre Shared.init s) {i r : Nat}
    (hi : s.vars[i]? = some (.ptr r)) (h2 : 2 ≤ Shared.owners s r) :
    Live r s.log ∧ (∃ s', Shared.step s (.deref i) = .ok s') ∧
    (3 ≤ Shared.owners s r → ∃ s', Shared.step s (.drop i) = .ok s' ∧ Live r s'.log ∧
      Shared.owners s' r + 1 = Shared.owners s r) := by
  have hinv := Shared.reach_inv h
  have hl : Live r s.log := by
    refine ⟨hinv.ptrMade r (by omega), fun hc => ?_⟩
    have := hinv.dead r hc
    omega
  refine ⟨hl, ⟨{ s with log := .used r :: s.log }, by simp [Shared.step, hi, hl]⟩, ?_⟩
  intro h3
  have hz : ¬ (s.cnt r + (Shared.M - 1)) % Shared.M = 0 := fun e => by
    have := (Shared.dec_mod (hinv.count r hl) (hinv.cntLt r) (by omega)).2.mp e
    omega
  refine ⟨{ s with vars := s.vars.set i .gone, cnt := upd s.cnt r ((s.cnt r + (Shared.M - 1)) % Shared.M) },
    by simp [Shared.step, Shared.cleanVar, hi, hl, hz], hl, ?_⟩
  have := Shared.count_set' (a := .gone) hi (.ptr r)
  rw [if_pos rfl, if_neg (by simp)] at this
  exact this

/-- `SharedPointer p;` leaves the pointer indeterminate: destroying it is undefined. -/
theorem C30_default_ctor_ub (s : Shared.St) :
    runOps Shared.step s [.defaultCtor, .drop s.vars.length] = .ub := by
  simp [runOps, Shared.step, Shared.cleanVar]

/-- An explicit `clean()` by one of several owners leaves it owning: destroying that variable counts it a second
time. Here the object of three owners is destroyed by one of them while the two others still point at it. -/
theorem C30_clean_counts_twice {s : Shared.St} (h : Reach Shared.step Shared.pre Shared.init s) {i r : Nat}
    (hi : s.vars[i]? = some (.ptr r)) (h3 : Shared.owners s r = 3) :
    ∃ s', runOps Shared.step s [.clean i, .drop i] = .ok s' ∧ .closed r ∈ s'.log ∧ Shared.owners s' r = 2 := by
  have hinv := Shared.reach_inv h
  have hl := (C30_shared_alive_partial h hi (by omega)).1
  have hcnt : s.cnt r = 2 := by
    have h1 := hinv.count r hl
    have h2 := hinv.cntLt r
    have hM := Shared.M_gt
    rcases Nat.lt_or_ge (s.cnt r + 1) Shared.M with h' | h'
    · rw [Nat.mod_eq_of_lt h'] at h1; omega
    · have : s.cnt r + 1 = Shared.M := by omega
      rw [this, Nat.mod_self] at h1; omega
  have e1 : (2 + (Shared.M - 1)) % Shared.M = 1 := by unfold Shared.M; decide
  have e2 : (1 + (Shared.M - 1)) % Shared.M = 0 := by unfold Shared.M; decide
  refine ⟨{ s with vars := (s.vars.set i .null).set i .gone, cnt := upd (upd s.cnt r 1) r 0, log := .closed r :: s.log },
    by simp [runOps, Shared.step, Shared.cleanVar, hi, hl, hcnt, e1, e2], by simp, ?_⟩
  have := Shared.count_set' (a := .gone) hi (.ptr r)
  rw [if_pos rfl, if_neg (by simp)] at this
  have e : s.vars.count (Shared.Slot.ptr r) = 3 := h3
  show ((s.vars.set i .null).set i .gone).count (.ptr r) = 2
  rw [List.set_set]
  omega

/-- Assigning one of two owners to itself destroys the object and is undefined. -/
theorem C30_self_assign_ub {s : Shared.St} (h : Reach Shared.step Shared.pre Shared.init s) {i r : Nat}
    (hi : s.vars[i]? = some (.ptr r)) (hl : Live r s.log) (h2 : Shared.owners s r = 2) :
    Shared.step s (.copyAssign i i) = .ub := by
  have hinv := Shared.reach_inv h
  have hz : (s.cnt r + (Shared.M - 1)) % Shared.M = 0 :=
    (Shared.dec_mod (hinv.count r hl) (hinv.cntLt r) (by omega)).2.mpr h2
  have hlt : i < s.vars.length := (List.getElem?_eq_some_iff.mp hi).1
  have hc : Shared.cleanVar s i = .ok { s with
      vars := s.vars.set i .null
      cnt := upd s.cnt r ((s.cnt r + (Shared.M - 1)) % Shared.M)
      log := .closed r :: s.log } := by simp [Shared.cleanVar, hi, hl, hz]
  simp [Shared.step, hc, Shared.incr, hlt]

/-- Copying a null pointer is undefined. -/
theorem C30_copy_null_ub {s : Shared.St} {j : Nat} (hj : s.vars[j]? = some .null) :
    Shared.step s (.copyCtor j) = .ub := by
  simp [Shared.step, Shared.incr, hj]

/-- An execution with three owners of one object, one obtained by assignment and one moved. -/
example : ∃ s, Reach Shared.step Shared.pre Shared.init s ∧
    (s.vars, s.log) = ([.ptr 0, .null, .ptr 0, .ptr 0], [.made 0]) :=
  Reach.witness [.create true, .create false, .copyCtor 0, .moveAssign 1 0, .copyAssign 0 2, .moveCtor 1] _ _ (by decide +kernel)

/-- An execution in which an object is destroyed while it is still owned. -/
example : ∃ s, Reach Shared.step Shared.pre Shared.init s ∧
    (s.vars, s.log) = ([.ptr 0, .gone], [.closed 0, .made 0]) :=
  Reach.witness [.create true, .copyCtor 0, .drop 1] _ _ (by decide +kernel)

/-- An execution in which an object is left behind. -/
example : ∃ s, Reach Shared.step Shared.pre Shared.init s ∧
    (s.vars, s.log) = ([.gone], [.made 0]) :=
  Reach.witness [.create true, .drop 0] _ _ (by decide +kernel)

/-- A default constructed pointer exists but nothing can be done with it: its member is indeterminate. -/
theorem C30_default_useless (s : Shared.St) : ∃ s', Shared.step s .defaultCtor = .ok s' ∧ Shared.Has s' s.vars.length ∧
    ∀ o ∈ [.copyCtor s.vars.length, .moveCtor s.vars.length, .clean s.vars.length, .drop s.vars.length, .deref s.vars.length],
      Shared.step s' o = .ub := by
  refine ⟨_, rfl, by simp [Shared.Has], ?_⟩
  simp [Shared.step, Shared.cleanVar, Shared.incr]

/-- C30: dereferencing is defined exactly for pointers to an object that exists. -/
theorem C30_deref_iff (s : Shared.St) (i : Nat) :
    (∃ s', Shared.step s (.deref i) = .ok s') ↔ ∃ r, s.vars[i]? = some (.ptr r) ∧ Live r s.log := by
  simp only [Shared.step]
  cases h : s.vars[i]? with
  | none => simp
  | some p =>
    cases p with
    | ptr r => by_cases hl : Live r s.log <;> simp [hl]
    | _ => simp

/-! The theorems at concrete states. -/

/-- The variables and the log after some operations. -/
def Own.Shared.after (os : List Shared.Op) : Shared.St := visit Shared.step Shared.pre Shared.init os

example := C30_destroyed_while_owned (.visit [.create true, .copyCtor 0, .drop 1] (by decide +kernel)) (r := 0) (by decide +kernel)
example := C30_unowned_never_destroyed (.visit [.create true, .drop 0] (by decide +kernel)) (r := 0) (by decide +kernel)
example := C30_drop_second_owner (.visit [.create true, .copyCtor 0] (by decide +kernel)) (i := 1) (r := 0) (by decide +kernel) (by decide +kernel) (by decide +kernel)
example := C30_dangling_ub (s := Shared.after [.create true, .copyCtor 0, .drop 1]) (i := 0) (r := 0) (by decide +kernel) (by decide +kernel)
example := C30_sole_owner_leaks (.visit [.create true] (by decide +kernel)) (i := 0) (r := 0) (by decide +kernel) (by decide +kernel) (by decide +kernel)
example := C30_shared_alive_partial (.visit [.create true, .copyCtor 0, .copyCtor 0] (by decide +kernel)) (i := 2) (r := 0) (by decide +kernel) (by decide +kernel)
example := C30_clean_counts_twice (.visit [.create true, .copyCtor 0, .copyCtor 0] (by decide +kernel)) (i := 2) (r := 0) (by decide +kernel) (by decide +kernel)
example := C30_self_assign_ub (.visit [.create true, .copyCtor 0] (by decide +kernel)) (i := 1) (r := 0) (by decide +kernel) (by decide +kernel) (by decide +kernel)

end Flame
