import Verif.Own.Book
import Verif.Stream.FileOwnProps

/-!
# C69, exactly: which files the streams lose

Histories may assign to streams that own a file and may assign a stream to itself; the only thing the program must not do (beyond closing or giving away files that
are not its own) is to tell a stream to continue owning a file it does not own.
-/

namespace Flame.FileSpec
open Flame.Own Flame.Own.FileS

/-- Specification: what the program may do. -/
def Allowed (s : St) (o : Op) : Prop :=
  pre s o ∧ match o with
    | .getFd i true => (s.vars i).map (fun v => v.own) = some true
    | _ => True

instance (s : St) (o : Op) : Decidable (Allowed s o) := by
  unfold Allowed
  cases o with
  | getFd i keep => cases keep <;> infer_instance
  | _ => infer_instance

/-- Specification: the file nobody will close after the call: the one owned by a stream that is assigned to. -/
def losing (s : St) : Op → List Nat
  | .moveAssign i _ => match s.vars i with
    | some ⟨some r, true⟩ => [r]
    | _ => []
  | _ => []

/-- Allowed calls only. -/
def call (s : St) (o : Op) : Res St := if Allowed s o then step s o else .ub

abbrev Hist := LossHist call losing start

structure Inv (s : St) (lost : List Nat) : Prop where
  book : OBook (owner s) lost s.log
  fresh : ∀ r, .made r ∈ s.log → r < s.next

/-- An entry is removed together with its file, if it has one. -/
theorem book_release {own : Nat → Option Nat} {lost : List Nat} {l : List Ev} (h : OBook own lost l) {k : Nat} {v : Var}
    (hv : own k = held (some v)) : OBook (upd own k none) lost (release v l) := by
  obtain ⟨fd, o⟩ := v
  cases fd with
  | none =>
    have e : release ⟨none, o⟩ l = l := by cases o <;> rfl
    rw [e]
    refine h.congr fun j => ?_
    by_cases hj : j = k
    · subst hj; simp [hv, held]
    · rw [upd_ne _ _ hj]
  | some r =>
    cases o with
    | false =>
      refine h.congr fun j => ?_
      by_cases hj : j = k
      · subst hj; simp [hv, held]
      · rw [upd_ne _ _ hj]
    | true =>
      simp only [held] at hv
      have : release ⟨some r, true⟩ l = .closed r :: l := by simp [release, h.isOpen k r hv]
      rw [this]
      exact h.close hv

/-- The file passes between the program and an object that owns nothing (or the other way round). -/
theorem book_pass {own own' : Nat → Option Nat} {lost : List Nat} {l : List Ev} (h : OBook own lost l) {a b r : Nat} (hab : a ≠ b)
    (ha : own a = some r) (hb : own b = none) (hb' : own' b = some r) (ha' : own' a = none)
    (ho : ∀ k, k ≠ a → k ≠ b → own' k = own k) : OBook own' lost l := by
  refine (h.hand (i := b) (j := a) hb).congr fun k => ?_
  by_cases hka : k = a
  · subst hka; simp [ha']
  · rw [upd_ne _ _ hka]
    by_cases hkb : k = b
    · subst hkb; simp [hb', ha]
    · rw [upd_ne _ _ hkb]; exact ho k hka hkb

theorem inv_step {s s' : St} {lost : List Nat} {o : Op} (h : Inv s lost) (hp : Allowed s o) (hs : step s o = .ok s') : Inv s' (losing s o ++ lost) := by
  obtain ⟨hpre, hc⟩ := hp
  cases o with
  | openFile =>
    simp only [step, Res.ok.injEq] at hs
    subst hs
    have hn : Ev.made s.next ∉ s.log := fun hm => absurd (h.fresh _ hm) (by omega)
    have h0 : owner s (2 * s.next + 1) = none := by
      cases e : owner s (2 * s.next + 1) with
      | none => rfl
      | some r =>
        rw [owner_caller] at e
        split at e
        · rename_i hcall
          have := h.book.isOpen (2 * s.next + 1) s.next (by rw [owner_caller, if_pos hcall])
          exact absurd this.1 hn
        · cases e
    refine ⟨(h.book.make h0 hn).congr (owner_ext (fun i => ?_) fun r => ?_), ?_⟩
    · rw [upd_ne _ _ (by omega), owner_var, owner_var]
    · by_cases hr : r = s.next
      · subst hr; simp [owner_caller]
      · rw [upd_ne _ _ (by omega), owner_caller, owner_caller]
        simp only [upd_ne _ _ hr]
    · intro r hr
      simp only [List.mem_cons, Ev.made.injEq] at hr
      rcases hr with rfl | hr
      · simp
      · have := h.fresh r hr; simp only; omega
  | closeFile r =>
    simp only [step, Res.ok.injEq] at hs
    subst hs
    simp only [pre] at hpre
    have ho : owner s (2 * r + 1) = some r := by rw [owner_caller, if_pos hpre]
    refine ⟨(book_release h.book (k := 2 * r + 1) (v := ⟨some r, true⟩) ho).congr (owner_ext (fun i => ?_) fun q => ?_),
      fun q hq => release_fresh (v := ⟨some r, true⟩) h.fresh q hq⟩
    · rw [upd_ne _ _ (by omega), owner_var, owner_var]
    · by_cases hq : q = r
      · subst hq; simp [owner_caller]
      · rw [upd_ne _ _ (by omega), owner_caller, owner_caller]
        simp only [upd_ne _ _ hq]
  | default i =>
    simp only [step, Res.ok.injEq] at hs
    subst hs
    simp only [pre] at hpre
    refine ⟨h.book.congr (owner_ext (fun k => ?_) fun q => ?_), h.fresh⟩
    · rw [owner_var, owner_var]
      by_cases hk : k = i
      · subst hk; simp [hpre, held]
      · simp only [upd_ne _ _ hk]
    · rw [owner_caller, owner_caller]
  | make i r own =>
    simp only [step, Res.ok.injEq] at hs
    subst hs
    obtain ⟨h1, h2⟩ := hpre
    cases own with
    | false =>
      refine ⟨h.book.congr (owner_ext (fun k => ?_) fun q => ?_), h.fresh⟩
      · rw [owner_var, owner_var]
        by_cases hk : k = i
        · subst hk; simp [h1, held]
        · simp only [upd_ne _ _ hk]
      · rw [owner_caller, owner_caller]; rfl
    | true =>
      refine ⟨book_pass h.book (a := 2 * r + 1) (b := 2 * i) (r := r) (by omega) ?_ ?_ ?_ ?_ ?_, h.fresh⟩
      · rw [owner_caller, if_pos (h2 rfl)]
      · rw [owner_var, h1]; rfl
      · rw [owner_var]; simp [held]
      · rw [owner_caller]; simp [hand]
      · intro k hka hkb
        rcases parity k with ⟨j, rfl | rfl⟩
        · rw [owner_var, owner_var]; simp only [upd_ne _ _ (show j ≠ i by omega)]
        · rw [owner_caller, owner_caller]; simp only [hand, upd_ne _ _ (show j ≠ r by omega)]
  | moveCtor i j =>
    obtain ⟨h1, h2⟩ := hpre
    obtain ⟨v, hv⟩ := Option.ne_none_iff_exists'.mp h2
    have hij : i ≠ j := fun e => by rw [e, hv] at h1; cases h1
    simp only [step, hv, Res.ok.injEq] at hs
    subst hs
    refine ⟨(h.book.hand (i := 2 * i) (j := 2 * j) ?_).congr (owner_ext (fun k => ?_) fun q => ?_), h.fresh⟩
    · rw [owner_var, h1]; rfl
    · rw [owner_var]
      by_cases hkj : k = j
      · subst hkj; simp [held]
      · rw [upd_ne _ _ (show 2 * k ≠ 2 * j by omega)]
        simp only [upd_ne _ _ hkj]
        by_cases hki : k = i
        · subst hki; simp [owner_var, hv]
        · rw [upd_ne _ _ (show 2 * k ≠ 2 * i by omega), owner_var]; simp only [upd_ne _ _ hki]
    · rw [upd_ne _ _ (by omega), upd_ne _ _ (by omega), owner_caller, owner_caller]
  | moveAssign i j =>
    obtain ⟨h1, h2⟩ := hpre
    obtain ⟨v, hv⟩ := Option.ne_none_iff_exists'.mp h2
    obtain ⟨w, hw⟩ := Option.ne_none_iff_exists'.mp h1
    simp only [step, hv, hw, Res.ok.injEq] at hs
    subst hs
    have hl : losing s (.moveAssign i j) = (owner s (2 * i)).toList := by
      rw [owner_var]
      simp only [losing, hw]
      obtain ⟨fd, own⟩ := w
      cases fd <;> cases own <;> rfl
    rw [hl]
    refine ⟨((h.book.forget (2 * i)).receive (2 * j)).congr (owner_ext (fun k => ?_) fun q => ?_), h.fresh⟩
    · rw [owner_var]
      by_cases hkj : k = j
      · subst hkj; simp [held]
      · rw [upd_ne _ _ (show 2 * k ≠ 2 * j by omega)]
        simp only [upd_ne _ _ hkj]
        by_cases hki : k = i
        · subst hki; simp [owner_var, hv]
        · rw [upd_ne _ _ (show 2 * k ≠ 2 * i by omega), owner_var]; simp only [upd_ne _ _ hki]
    · rw [upd_ne _ _ (by omega), upd_ne _ _ (by omega), owner_caller, owner_caller]
  | setFd i fd own =>
    have h1 : s.vars i ≠ none := by cases fd with
      | none => exact hpre
      | some r => exact hpre.1
    obtain ⟨v, hv⟩ := Option.ne_none_iff_exists'.mp h1
    simp only [step, hv, Res.ok.injEq] at hs
    subst hs
    have hrel := book_release h.book (k := 2 * i) (v := v) (by rw [owner_var, hv])
    refine ⟨?_, release_fresh (n := s.next) h.fresh⟩
    have plain : hand s.caller fd own = s.caller →
        held (some ⟨fd, own⟩) = none →
        OBook (owner { s with vars := upd s.vars i (some ⟨fd, own⟩), caller := hand s.caller fd own, log := release v s.log }) lost
          (release v s.log) := by
      intro hh hm
      refine hrel.congr (owner_ext (fun k => ?_) fun q => ?_)
      · rw [owner_var]
        by_cases hk : k = i
        · subst hk; simp only [upd_self]; exact hm
        · rw [upd_ne _ _ (show 2 * k ≠ 2 * i by omega), owner_var]; simp only [upd_ne _ _ hk]
      · rw [upd_ne _ _ (by omega), owner_caller, owner_caller]; simp only [hh]
    cases fd with
    | none => exact plain rfl rfl
    | some r =>
      cases own with
      | false => exact plain rfl rfl
      | true =>
        refine book_pass hrel (a := 2 * r + 1) (b := 2 * i) (r := r) (by omega) ?_ (by simp) ?_ ?_ ?_
        · rw [upd_ne _ _ (by omega), owner_caller, if_pos (hpre.2 rfl)]
        · rw [owner_var]; simp [held]
        · rw [owner_caller]; simp [hand]
        · intro k hka hkb
          rw [upd_ne _ _ hkb]
          rcases parity k with ⟨j, rfl | rfl⟩
          · rw [owner_var, owner_var]; simp only [upd_ne _ _ (show j ≠ i by omega)]
          · rw [owner_caller, owner_caller]; simp only [hand, upd_ne _ _ (show j ≠ r by omega)]
  | getFd i keep =>
    obtain ⟨v, hv⟩ := Option.ne_none_iff_exists'.mp hpre
    simp only [step, hv, Res.ok.injEq] at hs
    subst hs
    refine ⟨?_, h.fresh⟩
    obtain ⟨fd, o⟩ := v
    have same : ∀ (c : Nat → Bool), c = s.caller → (∀ (r : Nat), fd = some r → keep = o) →
        OBook (owner { s with vars := upd s.vars i (some { fd := fd, own := keep }), caller := c }) lost s.log := by
      rintro c rfl hk
      refine h.book.congr (owner_ext (fun k => ?_) fun q => ?_)
      · rw [owner_var, owner_var]
        by_cases hk' : k = i
        · subst hk'
          simp only [upd_self, hv]
          cases fd with
          | none => rfl
          | some r => rw [hk r rfl]
        · simp only [upd_ne _ _ hk']
      · rw [owner_caller, owner_caller]
    cases keep with
    | true =>
      have : o = true := by simpa [hv] using hc
      subst this
      exact same _ rfl fun _ _ => rfl
    | false =>
      cases o with
      | false => exact same _ rfl fun _ _ => rfl
      | true =>
        cases fd with
        | none => exact same _ rfl fun r e => (nomatch e)
        | some r =>
          have hi : owner s (2 * i) = some r := by rw [owner_var, hv]; rfl
          have hcall : owner s (2 * r + 1) = none := by
            cases e : owner s (2 * r + 1) with
            | none => rfl
            | some q =>
              rw [owner_caller] at e
              split at e
              · rename_i hh
                have := h.book.unique (2 * i) (2 * r + 1) r hi (by rw [owner_caller, if_pos hh])
                omega
              · cases e
          refine book_pass h.book (a := 2 * i) (b := 2 * r + 1) (r := r) (by omega) hi hcall ?_ ?_ ?_
          · rw [owner_caller]; simp
          · rw [owner_var]; simp [held]
          · intro k hka hkb
            rcases parity k with ⟨j, rfl | rfl⟩
            · rw [owner_var, owner_var]; simp only [upd_ne _ _ (show j ≠ i by omega)]
            · rw [owner_caller, owner_caller]; simp only [upd_ne _ _ (show j ≠ r by omega)]
  | use i =>
    simp only [pre, Option.map_eq_some_iff] at hpre
    obtain ⟨⟨fd, o⟩, hv, ho⟩ := hpre
    simp only at ho
    subst ho
    cases fd with
    | none => simp [step, hv] at hs; subst hs; exact h
    | some r =>
      simp [step, hv] at hs
      subst hs
      refine ⟨(h.book.use (i := 2 * i) (by rw [owner_var, hv]; rfl)).congr fun k => rfl, fun q hq => ?_⟩
      exact h.fresh q (by simpa using hq)
  | drop i =>
    obtain ⟨v, hv⟩ := Option.ne_none_iff_exists'.mp hpre
    simp only [step, hv, Res.ok.injEq] at hs
    subst hs
    have hrel := book_release h.book (k := 2 * i) (v := v) (by rw [owner_var, hv])
    refine ⟨hrel.congr (owner_ext (fun k => ?_) fun q => ?_), release_fresh (n := s.next) h.fresh⟩
    · rw [owner_var]
      by_cases hk : k = i
      · subst hk; simp [held]
      · rw [upd_ne _ _ (show 2 * k ≠ 2 * i by omega), owner_var]; simp only [upd_ne _ _ hk]
    · rw [upd_ne _ _ (by omega), owner_caller, owner_caller]

theorem hist_inv {s : St} {lost : List Nat} (h : Hist s lost) : Inv s lost := by
  induction h with
  | start =>
    refine ⟨OBook.init.congr fun k => ?_, by simp [start]⟩
    unfold owner; simp [start, held]
  | step _ e ih =>
    unfold call at e
    split at e
    · rename_i ha
      exact inv_step ih ha e
    · cases e

/-- Every allowed call is defined. -/
theorem defined {s : St} {o : Op} (h : Allowed s o) : ∃ s', call s o = .ok s' := by
  have hp := h.1
  unfold call
  rw [if_pos h]
  cases o with
  | openFile => exact ⟨_, rfl⟩
  | closeFile r => exact ⟨_, rfl⟩
  | default i => exact ⟨_, rfl⟩
  | make i r own => exact ⟨_, rfl⟩
  | moveCtor i j =>
    obtain ⟨v, hv⟩ := Option.ne_none_iff_exists'.mp hp.2
    exact ⟨_, by simp only [step, hv]; rfl⟩
  | moveAssign i j =>
    obtain ⟨v, hv⟩ := Option.ne_none_iff_exists'.mp hp.2
    obtain ⟨u, hu⟩ := Option.ne_none_iff_exists'.mp hp.1
    exact ⟨_, by simp only [step, hv, hu]; rfl⟩
  | setFd i fd own =>
    have h1 : s.vars i ≠ none := by
      cases fd with
      | none => exact hp
      | some r => exact hp.1
    obtain ⟨v, hv⟩ := Option.ne_none_iff_exists'.mp h1
    exact ⟨_, by simp only [step, hv]; rfl⟩
  | getFd i keep =>
    obtain ⟨v, hv⟩ := Option.ne_none_iff_exists'.mp (show s.vars i ≠ none from hp)
    exact ⟨_, by simp only [step, hv]; rfl⟩
  | use i =>
    obtain ⟨v, hv, -⟩ := Option.map_eq_some_iff.mp (show (s.vars i).map (fun v => v.own) = some true from hp)
    cases hf : v.fd with
    | none => exact ⟨_, by simp only [step, hv, hf]; rfl⟩
    | some r => exact ⟨_, by simp only [step, hv, hf]; rfl⟩
  | drop i =>
    obtain ⟨v, hv⟩ := Option.ne_none_iff_exists'.mp (show s.vars i ≠ none from hp)
    exact ⟨_, by simp only [step, hv]; rfl⟩

end Flame.FileSpec

namespace Flame
open Own Own.FileS

/-- **C69, exactly.**  After every history of allowed calls: every further allowed call is defined; no file was closed twice, used after it was closed, or closed though it was
not the program's; a file that is open is owned by exactly one stream, or is the program's to close, or is one of those the history lost by assigning to the stream that owned it (also
to itself); and when the streams are gone and the program has closed its own, every file was closed exactly once if and only if no stream that owned a file was assigned to. -/
theorem C69_lost_exact {s : FileS.St} {lost : List Nat} (h : FileSpec.Hist s lost) :
    (∀ o, FileSpec.Allowed s o → ∃ s', FileSpec.call s o = .ok s') ∧ Proper s.log ∧
    (∀ r, Live r s.log ↔ (∃ i, s.vars i = some ⟨some r, true⟩) ∨ s.caller r = true ∨ r ∈ lost) ∧
    (∀ i j r, s.vars i = some ⟨some r, true⟩ → (s.vars j = some ⟨some r, true⟩ → i = j) ∧ s.caller r = false) ∧
    ((∀ i, s.vars i = none) → (∀ r, s.caller r = false) → (∀ r, Live r s.log ↔ r ∈ lost) ∧ (ReleasedOnce s.log ↔ lost = [])) := by
  have hi := FileSpec.hist_inv h
  obtain ⟨a, b, c⟩ := hi.book.exact
  have hv : ∀ i r, s.vars i = some ⟨some r, true⟩ ↔ owner s (2 * i) = some r := by
    intro i r
    rw [owner_var]
    cases hx : s.vars i with
    | none => simp [held]
    | some v =>
      obtain ⟨fd, own⟩ := v
      cases fd <;> cases own <;> simp [held]
  have hcl : ∀ r q, owner s (2 * r + 1) = some q ↔ s.caller r = true ∧ r = q := by
    intro r q
    rw [owner_caller]
    by_cases hx : s.caller r = true <;> simp [hx]
  refine ⟨fun o ho => FileSpec.defined ho, a, fun r => ?_, fun i j r h1 => ⟨fun h2 => ?_, ?_⟩, fun h1 h2 => c fun k => ?_⟩
  · rw [b r]
    constructor
    · rintro (⟨k, hk⟩ | hk)
      · rcases parity k with ⟨i, rfl | rfl⟩
        · exact .inl ⟨i, (hv i r).mpr hk⟩
        · obtain ⟨h1, rfl⟩ := (hcl i r).mp hk
          exact .inr (.inl h1)
      · exact .inr (.inr hk)
    · rintro (⟨i, hk⟩ | hk | hk)
      · exact .inl ⟨_, (hv i r).mp hk⟩
      · exact .inl ⟨2 * r + 1, (hcl r r).mpr ⟨hk, rfl⟩⟩
      · exact .inr hk
  · have := hi.book.unique (2 * i) (2 * j) r ((hv i r).mp h1) ((hv j r).mp h2)
    omega
  · cases hx : s.caller r with
    | false => rfl
    | true =>
      have := hi.book.unique (2 * i) (2 * r + 1) r ((hv i r).mp h1) ((hcl r r).mpr ⟨hx, rfl⟩)
      omega
  · rcases parity k with ⟨i, rfl | rfl⟩
    · rw [owner_var, h1]; rfl
    · rw [owner_caller, h2]; rfl

-- one file is lost by assigning over its stream, one by assigning its stream to itself; a lent file is left alone
example : ∃ s, FileSpec.Hist s [2, 0] ∧ (s.log, s.vars 0, s.vars 2) = ([.closed 3, .closed 1, .made 3, .made 2, .made 1, .made 0], none, some ⟨none, false⟩) :=
  LossHist.witness [.openFile, .openFile, .openFile, .openFile, .make 0 0 true, .make 1 1 true, .make 2 2 true, .make 3 3 false, .moveAssign 0 1, .moveAssign 2 2,
    .drop 0, .drop 3, .closeFile 3] _ _ (by decide +kernel)

end Flame
