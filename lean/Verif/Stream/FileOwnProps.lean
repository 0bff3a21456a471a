import Verif.Stream.FileOwn

/-! # C69: every descriptor a stream owns is closed exactly once, others never -/

namespace Flame.Own.FileS

structure Inv (s : St) : Prop where
  ledger : Ledger (owner s) s.log
  fresh : ∀ r, .made r ∈ s.log → r < s.next

theorem inv_start : Inv start := by
  refine ⟨Ledger.init.congr fun k => ?_, by simp [start]⟩
  unfold owner; simp [start, held]

theorem parity (k : Nat) : ∃ i, k = 2 * i ∨ k = 2 * i + 1 := ⟨k / 2, by omega⟩

theorem owner_var (s : St) (i : Nat) : owner s (2 * i) = held (s.vars i) := by
  unfold owner
  rw [if_pos (by omega), show 2 * i / 2 = i by omega]

theorem owner_caller (s : St) (r : Nat) : owner s (2 * r + 1) = if s.caller r then some r else none := by
  unfold owner
  rw [if_neg (by omega), show (2 * r + 1) / 2 = r by omega]

/-- Two tables agree when they agree on objects and on the program. -/
theorem owner_ext {s : St} {f : Nat → Option Nat} (h1 : ∀ i, owner s (2 * i) = f (2 * i))
    (h2 : ∀ r, owner s (2 * r + 1) = f (2 * r + 1)) : ∀ k, owner s k = f k := by
  intro k
  rcases parity k with ⟨i, rfl | rfl⟩
  · exact h1 i
  · exact h2 i

/-- An entry is removed together with its file, if it has one. -/
theorem ledger_release {own : Nat → Option Nat} {l : List Ev} (h : Ledger own l) {k : Nat} {v : Var}
    (hv : own k = held (some v)) : Ledger (upd own k none) (release v l) := by
  obtain ⟨fd, o⟩ := v
  cases fd with
  | none =>
    have e : release ⟨none, o⟩ l = l := by cases o <;> rfl
    rw [e]
    refine h.congr fun j => ?_
    by_cases hj : j = k
    · subst hj; simp [hv, held]
    · rw [upd_ne _ _ hj]
  | some r =>
    cases o with
    | false =>
      refine h.congr fun j => ?_
      by_cases hj : j = k
      · subst hj; simp [hv, held]
      · rw [upd_ne _ _ hj]
    | true =>
      simp only [held] at hv
      have : release ⟨some r, true⟩ l = .closed r :: l := by simp [release, h.ownedLive k r hv]
      rw [this]
      exact h.close hv

/-- The file passes between the program and an object that owns nothing (or the other way round). -/
theorem ledger_pass {own own' : Nat → Option Nat} {l : List Ev} (h : Ledger own l) {a b r : Nat} (hab : a ≠ b)
    (ha : own a = some r) (hb : own b = none) (hb' : own' b = some r) (ha' : own' a = none)
    (ho : ∀ k, k ≠ a → k ≠ b → own' k = own k) : Ledger own' l := by
  refine (h.move hb (fun e => hab e.symm)).congr fun k => ?_
  by_cases hka : k = a
  · subst hka; simp [ha']
  · rw [upd_ne _ _ hka]
    by_cases hkb : k = b
    · subst hkb; simp [hb', ha]
    · rw [upd_ne _ _ hkb]; exact ho k hka hkb

theorem release_fresh {v : Var} {l : List Ev} {n : Nat} (h : ∀ r, .made r ∈ l → r < n) : ∀ r, .made r ∈ release v l → r < n := by
  intro r hr
  obtain ⟨fd, o⟩ := v
  cases fd with
  | none => cases o <;> exact h r hr
  | some q =>
    cases o with
    | false => exact h r hr
    | true =>
      simp only [release] at hr
      split at hr <;> exact h r (by simpa using hr)

theorem inv_step {s s' : St} {o : Op} (h : Inv s) (hp : careful s o) (hs : step s o = .ok s') : Inv s' := by
  obtain ⟨hpre, hc⟩ := hp
  cases o with
  | openFile =>
    simp only [step, Res.ok.injEq] at hs
    subst hs
    have hn : Ev.made s.next ∉ s.log := fun hm => absurd (h.fresh _ hm) (by omega)
    have hcl : Ev.closed s.next ∉ s.log := fun hm => hn (closed_made h.ledger.proper hm)
    have h0 : owner s (2 * s.next + 1) = none := by
      cases e : owner s (2 * s.next + 1) with
      | none => rfl
      | some r =>
        rw [owner_caller] at e
        split at e
        · rename_i hcall
          have := h.ledger.ownedLive (2 * s.next + 1) s.next (by rw [owner_caller, if_pos hcall])
          exact absurd this.1 hn
        · cases e
    refine ⟨(h.ledger.make h0 hn hcl).congr (owner_ext (fun i => ?_) fun r => ?_), ?_⟩
    · rw [upd_ne _ _ (by omega), owner_var, owner_var]
    · by_cases hr : r = s.next
      · subst hr; simp [owner_caller]
      · rw [upd_ne _ _ (by omega), owner_caller, owner_caller]
        simp only [upd_ne _ _ hr]
    · intro r hr
      simp only [List.mem_cons, Ev.made.injEq] at hr
      rcases hr with rfl | hr
      · simp
      · have := h.fresh r hr; simp only; omega
  | closeFile r =>
    simp only [step, Res.ok.injEq] at hs
    subst hs
    simp only [pre] at hpre
    have ho : owner s (2 * r + 1) = some r := by rw [owner_caller, if_pos hpre]
    refine ⟨(ledger_release h.ledger (k := 2 * r + 1) (v := ⟨some r, true⟩) ho).congr (owner_ext (fun i => ?_) fun q => ?_),
      fun q hq => release_fresh (v := ⟨some r, true⟩) h.fresh q hq⟩
    · rw [upd_ne _ _ (by omega), owner_var, owner_var]
    · by_cases hq : q = r
      · subst hq; simp [owner_caller]
      · rw [upd_ne _ _ (by omega), owner_caller, owner_caller]
        simp only [upd_ne _ _ hq]
  | default i =>
    simp only [step, Res.ok.injEq] at hs
    subst hs
    simp only [pre] at hpre
    refine ⟨h.ledger.congr (owner_ext (fun k => ?_) fun q => ?_), h.fresh⟩
    · rw [owner_var, owner_var]
      by_cases hk : k = i
      · subst hk; simp [hpre, held]
      · simp only [upd_ne _ _ hk]
    · rw [owner_caller, owner_caller]
  | make i r own =>
    simp only [step, Res.ok.injEq] at hs
    subst hs
    obtain ⟨h1, h2⟩ := hpre
    cases own with
    | false =>
      refine ⟨h.ledger.congr (owner_ext (fun k => ?_) fun q => ?_), h.fresh⟩
      · rw [owner_var, owner_var]
        by_cases hk : k = i
        · subst hk; simp [h1, held]
        · simp only [upd_ne _ _ hk]
      · rw [owner_caller, owner_caller]; rfl
    | true =>
      refine ⟨ledger_pass h.ledger (a := 2 * r + 1) (b := 2 * i) (r := r) (by omega) ?_ ?_ ?_ ?_ ?_, h.fresh⟩
      · rw [owner_caller, if_pos (h2 rfl)]
      · rw [owner_var, h1]; rfl
      · rw [owner_var]; simp [held]
      · rw [owner_caller]; simp [hand]
      · intro k hka hkb
        rcases parity k with ⟨j, rfl | rfl⟩
        · rw [owner_var, owner_var]; simp only [upd_ne _ _ (show j ≠ i by omega)]
        · rw [owner_caller, owner_caller]; simp only [hand, upd_ne _ _ (show j ≠ r by omega)]
  | moveCtor i j =>
    obtain ⟨h1, h2⟩ := hpre
    obtain ⟨v, hv⟩ := Option.ne_none_iff_exists'.mp h2
    have hij : i ≠ j := fun e => by rw [e, hv] at h1; cases h1
    simp only [step, hv, Res.ok.injEq] at hs
    subst hs
    refine ⟨(h.ledger.move (i := 2 * i) (j := 2 * j) ?_ (by omega)).congr (owner_ext (fun k => ?_) fun q => ?_), h.fresh⟩
    · rw [owner_var, h1]; rfl
    · rw [owner_var]
      by_cases hkj : k = j
      · subst hkj; simp [held]
      · rw [upd_ne _ _ (show 2 * k ≠ 2 * j by omega)]
        simp only [upd_ne _ _ hkj]
        by_cases hki : k = i
        · subst hki; simp [owner_var, hv]
        · rw [upd_ne _ _ (show 2 * k ≠ 2 * i by omega), owner_var]; simp only [upd_ne _ _ hki]
    · rw [upd_ne _ _ (by omega), upd_ne _ _ (by omega), owner_caller, owner_caller]
  | moveAssign i j =>
    obtain ⟨h1, h2⟩ := hpre
    obtain ⟨h3, hij⟩ := hc
    obtain ⟨v, hv⟩ := Option.ne_none_iff_exists'.mp h2
    obtain ⟨w, hw⟩ := Option.ne_none_iff_exists'.mp h1
    simp only [step, hv, hw, Res.ok.injEq] at hs
    subst hs
    refine ⟨(h.ledger.move (i := 2 * i) (j := 2 * j) h3 (by omega)).congr (owner_ext (fun k => ?_) fun q => ?_), h.fresh⟩
    · rw [owner_var]
      by_cases hkj : k = j
      · subst hkj; simp [held]
      · rw [upd_ne _ _ (show 2 * k ≠ 2 * j by omega)]
        simp only [upd_ne _ _ hkj]
        by_cases hki : k = i
        · subst hki; simp [owner_var, hv]
        · rw [upd_ne _ _ (show 2 * k ≠ 2 * i by omega), owner_var]; simp only [upd_ne _ _ hki]
    · rw [upd_ne _ _ (by omega), upd_ne _ _ (by omega), owner_caller, owner_caller]
  | setFd i fd own =>
    have h1 : s.vars i ≠ none := by cases fd with
      | none => exact hpre
      | some r => exact hpre.1
    obtain ⟨v, hv⟩ := Option.ne_none_iff_exists'.mp h1
    simp only [step, hv, Res.ok.injEq] at hs
    subst hs
    have hrel := ledger_release h.ledger (k := 2 * i) (v := v) (by rw [owner_var, hv])
    refine ⟨?_, release_fresh (n := s.next) h.fresh⟩
    have plain : hand s.caller fd own = s.caller →
        held (some ⟨fd, own⟩) = none →
        Ledger (owner { s with vars := upd s.vars i (some ⟨fd, own⟩), caller := hand s.caller fd own, log := release v s.log })
          (release v s.log) := by
      intro hh hm
      refine hrel.congr (owner_ext (fun k => ?_) fun q => ?_)
      · rw [owner_var]
        by_cases hk : k = i
        · subst hk; simp only [upd_self]; exact hm
        · rw [upd_ne _ _ (show 2 * k ≠ 2 * i by omega), owner_var]; simp only [upd_ne _ _ hk]
      · rw [upd_ne _ _ (by omega), owner_caller, owner_caller]; simp only [hh]
    cases fd with
    | none => exact plain rfl rfl
    | some r =>
      cases own with
      | false => exact plain rfl rfl
      | true =>
        refine ledger_pass hrel (a := 2 * r + 1) (b := 2 * i) (r := r) (by omega) ?_ (by simp) ?_ ?_ ?_
        · rw [upd_ne _ _ (by omega), owner_caller, if_pos (hpre.2 rfl)]
        · rw [owner_var]; simp [held]
        · rw [owner_caller]; simp [hand]
        · intro k hka hkb
          rw [upd_ne _ _ hkb]
          rcases parity k with ⟨j, rfl | rfl⟩
          · rw [owner_var, owner_var]; simp only [upd_ne _ _ (show j ≠ i by omega)]
          · rw [owner_caller, owner_caller]; simp only [hand, upd_ne _ _ (show j ≠ r by omega)]
  | getFd i keep =>
    obtain ⟨v, hv⟩ := Option.ne_none_iff_exists'.mp hpre
    simp only [step, hv, Res.ok.injEq] at hs
    subst hs
    refine ⟨?_, h.fresh⟩
    obtain ⟨fd, o⟩ := v
    have same : ∀ (c : Nat → Bool), c = s.caller → (∀ (r : Nat), fd = some r → keep = o) →
        Ledger (owner { s with vars := upd s.vars i (some { fd := fd, own := keep }), caller := c }) s.log := by
      rintro c rfl hk
      refine h.ledger.congr (owner_ext (fun k => ?_) fun q => ?_)
      · rw [owner_var, owner_var]
        by_cases hk' : k = i
        · subst hk'
          simp only [upd_self, hv]
          cases fd with
          | none => rfl
          | some r => rw [hk r rfl]
        · simp only [upd_ne _ _ hk']
      · rw [owner_caller, owner_caller]
    cases keep with
    | true =>
      have : o = true := by simpa [hv] using hc
      subst this
      exact same _ rfl fun _ _ => rfl
    | false =>
      cases o with
      | false => exact same _ rfl fun _ _ => rfl
      | true =>
        cases fd with
        | none => exact same _ rfl fun r e => (nomatch e)
        | some r =>
          have hi : owner s (2 * i) = some r := by rw [owner_var, hv]; rfl
          have hcall : owner s (2 * r + 1) = none := by
            cases e : owner s (2 * r + 1) with
            | none => rfl
            | some q =>
              rw [owner_caller] at e
              split at e
              · rename_i hh
                have := h.ledger.unique (2 * i) (2 * r + 1) r hi (by rw [owner_caller, if_pos hh])
                omega
              · cases e
          refine ledger_pass h.ledger (a := 2 * i) (b := 2 * r + 1) (r := r) (by omega) hi hcall ?_ ?_ ?_
          · rw [owner_caller]; simp
          · rw [owner_var]; simp [held]
          · intro k hka hkb
            rcases parity k with ⟨j, rfl | rfl⟩
            · rw [owner_var, owner_var]; simp only [upd_ne _ _ (show j ≠ i by omega)]
            · rw [owner_caller, owner_caller]; simp only [upd_ne _ _ (show j ≠ r by omega)]
  | use i =>
    simp only [pre, Option.map_eq_some_iff] at hpre
    obtain ⟨⟨fd, o⟩, hv, ho⟩ := hpre
    simp only at ho
    subst ho
    cases fd with
    | none => simp [step, hv] at hs; subst hs; exact h
    | some r =>
      simp [step, hv] at hs
      subst hs
      refine ⟨(h.ledger.use (i := 2 * i) (by rw [owner_var, hv]; rfl)).congr fun k => rfl, fun q hq => ?_⟩
      exact h.fresh q (by simpa using hq)
  | drop i =>
    obtain ⟨v, hv⟩ := Option.ne_none_iff_exists'.mp hpre
    simp only [step, hv, Res.ok.injEq] at hs
    subst hs
    have hrel := ledger_release h.ledger (k := 2 * i) (v := v) (by rw [owner_var, hv])
    refine ⟨hrel.congr (owner_ext (fun k => ?_) fun q => ?_), release_fresh (n := s.next) h.fresh⟩
    · rw [owner_var]
      by_cases hk : k = i
      · subst hk; simp [held]
      · rw [upd_ne _ _ (show 2 * k ≠ 2 * i by omega), owner_var]; simp only [upd_ne _ _ hk]
    · rw [upd_ne _ _ (by omega), owner_caller, owner_caller]

theorem reach_inv {s : St} (h : Reach step careful start s) : Inv s :=
  Reach.inv inv_start (fun _ _ _ hi hp he => inv_step hi hp he) h

end Flame.Own.FileS

namespace Flame
open Own Own.FileS

/-- C69 (partial: streams that own a file are not assigned to, and non-owners are not told to continue owning): along every
execution every file is closed at most once, is used only while open, and always has exactly one owner; when all streams
are gone and the program has closed what it is responsible for, every file was closed exactly once. -/
theorem C69_streams_partial {s : FileS.St} (h : Reach FileS.step FileS.careful FileS.start s) :
    Ledger (FileS.owner s) s.log ∧
      ((∀ i, s.vars i = none) → (∀ r, s.caller r = false) → ReleasedOnce s.log) := by
  have hi := reach_inv h
  refine ⟨hi.ledger, fun h1 h2 => hi.ledger.releasedOnce fun k => ?_⟩
  rcases parity k with ⟨j, rfl | rfl⟩
  · rw [owner_var, h1]; rfl
  · rw [owner_caller, h2]; rfl

/-- Files opened, given to streams, moved, replaced, taken back and closed. -/
example : ∃ s, Reach FileS.step FileS.careful FileS.start s ∧
    s.log = [.closed 0, .closed 1, .used 1, .closed 2, .made 2, .made 1, .made 0] :=
  Reach.witness (step := FileS.step) (pre := FileS.careful) (s₀ := FileS.start) [.openFile, .openFile, .openFile, .make 0 2 true, .moveCtor 1 0, .setFd 1 (some 1) true, .use 1, .drop 0, .drop 1,
    .make 2 0 true, .getFd 2 false, .drop 2, .closeFile 0] (fun s => s.log) _ (by decide +kernel)

/-- C69: a stream that was given a descriptor without owning it never closes it. -/
theorem C69_borrowed {s s' : FileS.St} {i r : Nat} (hv : s.vars i = some ⟨some r, false⟩) (hs : FileS.step s (.drop i) = .ok s') :
    s'.log = s.log := by
  simp [FileS.step, hv] at hs
  subst hs
  rfl

example : ∃ s, Reach FileS.step FileS.careful FileS.start s ∧ s.vars 0 = some ⟨some 0, false⟩ :=
  Reach.witness (step := FileS.step) (pre := FileS.careful) (s₀ := FileS.start) [.openFile, .make 0 0 false] (fun s => s.vars 0) _ (by decide +kernel)

/-- C69 violated: assigning to a stream that owns a file loses that file: it stays open and nobody will close it. -/
theorem C69_assign_leaks {s s' : FileS.St} (h : Reach FileS.step FileS.careful FileS.start s) {i j r : Nat} (hij : i ≠ j)
    (hi : s.vars i = some ⟨some r, true⟩) (hs : FileS.step s (.moveAssign i j) = .ok s') :
    Live r s'.log ∧ ∀ k, FileS.owner s' k ≠ some r := by
  have hinv := reach_inv h
  have ho : FileS.owner s (2 * i) = some r := by rw [owner_var, hi]; rfl
  simp only [FileS.step, hi] at hs
  cases hv : s.vars j with
  | none => rw [hv] at hs; cases hs
  | some v =>
    rw [hv] at hs
    simp only [Res.ok.injEq] at hs
    subst hs
    refine ⟨hinv.ledger.ownedLive _ _ ho, fun k hk => ?_⟩
    rcases parity k with ⟨q, rfl | rfl⟩
    · rw [owner_var] at hk
      by_cases hq : q = j
      · subst hq; simp [held] at hk
      · simp only [upd_ne _ _ hq] at hk
        by_cases hqi : q = i
        · subst hqi
          simp only [upd_self] at hk
          have : FileS.owner s (2 * j) = some r := by rw [owner_var, hv]; exact hk
          have := hinv.ledger.unique _ _ _ this ho
          omega
        · simp only [upd_ne _ _ hqi] at hk
          have : FileS.owner s (2 * q) = some r := by rw [owner_var]; exact hk
          have := hinv.ledger.unique _ _ _ this ho
          omega
    · rw [owner_caller] at hk
      have : FileS.owner s (2 * q + 1) = some r := by rw [owner_caller]; exact hk
      have := hinv.ledger.unique _ _ _ this ho
      omega

example : ∃ s, Reach FileS.step FileS.careful FileS.start s ∧ (s.vars 0, s.vars 1) = (some ⟨some 0, true⟩, some ⟨none, false⟩) :=
  Reach.witness (step := FileS.step) (pre := FileS.careful) (s₀ := FileS.start) [.openFile, .make 0 0 true, .default 1] (fun s => (s.vars 0, s.vars 1)) _ (by decide +kernel)

/-- C69 violated: assigning a stream to itself loses its file. -/
theorem C69_self_move {s s' : FileS.St} {i : Nat} (hs : FileS.step s (.moveAssign i i) = .ok s') :
    s'.vars i = some ⟨none, false⟩ ∧ s'.log = s.log := by
  simp only [FileS.step] at hs
  cases hv : s.vars i with
  | none => rw [hv] at hs; cases hs
  | some v =>
    rw [hv] at hs
    simp only [Res.ok.injEq] at hs
    subst hs
    exact ⟨by simp, rfl⟩

/-- C69 violated: `getFileDescriptor(true)` on a stream that does not own its file makes it the owner: the file is closed by the
stream although the program still holds it; when the program closes it as it should, its number may already be another file's. -/
theorem C69_continue_owning_closes {s s₁ s₂ : FileS.St} {i r : Nat} (hv : s.vars i = some ⟨some r, false⟩) (hl : Live r s.log)
    (h1 : FileS.step s (.getFd i true) = .ok s₁) (h2 : FileS.step s₁ (.drop i) = .ok s₂) :
    s₂.log = .closed r :: s.log ∧ s₂.caller = s.caller ∧ ∀ s₃, FileS.step s₂ (.closeFile r) = .ok s₃ → s₃.log = .closedForeign :: s₂.log ∧
      ¬ Proper s₃.log := by
  simp [FileS.step, hv] at h1
  subst h1
  simp [FileS.step] at h2
  subst h2
  have hlog : release ⟨some r, true⟩ s.log = .closed r :: s.log := by simp [release, hl]
  refine ⟨hlog, rfl, fun s₃ h3 => ?_⟩
  have hn : ¬ Live r (.closed r :: s.log) := fun h => h.2 (by simp)
  simp only [FileS.step, Res.ok.injEq] at h3
  subst h3
  have : release ⟨some r, true⟩ (release ⟨some r, true⟩ s.log) = .closedForeign :: release ⟨some r, true⟩ s.log := by
    rw [hlog]
    simp [release, hn]
  exact ⟨this, by simp only [this]; exact id⟩

example : ∃ s, Reach FileS.step FileS.careful FileS.start s ∧ s.vars 0 = some ⟨some 0, false⟩ ∧ Live 0 s.log ∧ s.caller 0 = true := by
  obtain ⟨s, h1, h2⟩ := Reach.witness (step := FileS.step) (pre := FileS.careful) (s₀ := FileS.start)
    [.openFile, .make 0 0 false] (fun s => (s.vars 0, decide (Live 0 s.log), s.caller 0)) (some ⟨some 0, false⟩, true, true)
    (by decide +kernel)
  simp only [Prod.mk.injEq, decide_eq_true_eq] at h2
  exact ⟨s, h1, h2⟩

/-- C69 violated: the destructor, `operator=` and `open` of `NamedPipeStream` all begin with `deinit`, which reads a flag that
was never initialised, in every state. -/
theorem C69_named_pipe_ub (p : FileS.PS) (log : List Ev) : p.deinit none log = .ub ∧ p.destroy none log = .ub := ⟨rfl, rfl⟩

/-- C69 violated: and whatever that flag reads as, neither descriptor of a `NamedPipeStream` is ever closed: the log is unchanged
by its destruction. -/
theorem C69_named_pipe_leaks (p : FileS.PS) (log : List Ev) (b : Bool) : p.destroy (some b) log = .ok log := rfl

/-- C69 violated: destroying a default-constructed `NamedPipeWriter` reads the flag, too. -/
theorem C69_named_writer_default_ub (log : List Ev) : FileS.PW.default.destroy none log = .ub := rfl

/-- C69: moving one named pipe writer over another passes the file and the flag that asks for removal to the target (but not the
name, C163); the source then closes nothing and removes nothing. -/
theorem C69_named_writer_moved (x y : FileS.PW) {b : Bool} (hy : y.del = some b) (ind : Option Bool) :
    ∃ x' y', x.moveAssign ind y = .ok (x', y') ∧ ∀ log ind', x'.destroy ind' log = y.destroy ind' log ∧
      y'.destroy ind' log = .ok (log, false) := by
  obtain ⟨f, d⟩ := y
  simp only at hy
  subst hy
  exact ⟨⟨f, some b⟩, ⟨⟨none, false⟩, some false⟩, rfl, fun log ind' => ⟨rfl, rfl⟩⟩

example : (⟨⟨some 3, true⟩, some true⟩ : FileS.PW).destroy none [.made 3] = .ok ([.closed 3, .made 3], true) := by decide

namespace Flame
open Own
example := C69_self_move (s := visit FileS.step FileS.careful FileS.start ([.openFile, .make 0 0 false] : List FileS.Op)) (i := 0) rfl
end Flame

end Flame
