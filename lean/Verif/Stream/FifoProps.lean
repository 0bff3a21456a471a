import Verif.Stream.Fifo

/-!
# C108, C109: named pipes
-/

namespace Flame.Fifo
open Flame.Own

/-- What the kernel guarantees: error numbers are positive, descriptors are not negative. -/
structure Sane (e : Env) : Prop where
  rNode : ∀ x, e.rNode = some x → 0 < x
  rOpen : ∀ x, e.rOpen = some x → 0 < x
  wNode : ∀ x, e.wNode = some x → 0 < x
  wOpen : ∀ x, e.wOpen = some x → 0 < x
  rFd : 0 ≤ e.rFd
  wFd : 0 ≤ e.wFd

/-- The result an end of the pipe should have: the descriptor, or the error of the first call that failed (an existing node is no error). -/
def expected (nodeErr openErr : Option Int) (fd : Int) : RV :=
  match nodeErr.filter (fun x => x ≠ 17) with
  | some x => ⟨-1, -x⟩
  | none => match openErr with
    | some x => ⟨-1, -x⟩
    | none => ⟨fd, 0⟩

theorem makeFifo_expected {n o : Option Int} {fd : Int} {a : Action} (ha : a ≠ .bidirectional) : makeFifo n o fd a = expected n o fd := by
  unfold makeFifo expected makeNode opened
  cases n with
  | none => cases a <;> cases o <;> simp_all [INVALID]
  | some x =>
    by_cases hx : x = 17
    · subst hx; cases a <;> cases o <;> simp_all [EEXIST, INVALID, Option.filter]
    · cases a <;> simp_all [EEXIST, INVALID, Option.filter]

/-- C108: one end of a pipe: descriptor and status agree, for all answers of the system. -/
theorem C108_end {n o : Option Int} {fd : Int} {a : Action} (ha : a ≠ .bidirectional) (hn : ∀ x, n = some x → 0 < x)
    (ho : ∀ x, o = some x → 0 < x) (hfd : 0 ≤ fd) :
    makeFifo n o fd a = expected n o fd ∧ ((makeFifo n o fd a).status = 0 ↔ 0 ≤ (makeFifo n o fd a).fd) ∧
      (makeFifo n o fd a).status ≤ 0 := by
  rw [makeFifo_expected ha]
  refine ⟨rfl, ?_⟩
  unfold expected
  cases n with
  | none =>
    cases o with
    | none => simp [hfd]
    | some y => have := ho y rfl; simp; omega
  | some x =>
    have := hn x rfl
    by_cases hx : x = 17
    · subst hx
      cases o with
      | none => simp [hfd, Option.filter]
      | some y => have := ho y rfl; simp [Option.filter]; omega
    · simp [Option.filter, hx]; omega

/-- C108 fails for one direction: the end that was not asked for is reported as descriptor 0 with status success. -/
theorem C108_other_end_violated {n o : Option Int} {fd : Int} :
    (∃ d, makeNamedPipe n o fd .reader = some d ∧ d.reader = expected n o fd ∧ d.writer = ⟨0, 0⟩) ∧
    (∃ d, makeNamedPipe n o fd .writer = some d ∧ d.writer = expected n o fd ∧ d.reader = ⟨0, 0⟩) :=
  ⟨⟨_, rfl, makeFifo_expected (a := .reader) (by simp), rfl⟩, ⟨_, rfl, makeFifo_expected (a := .writer) (by simp), rfl⟩⟩

/-- C108: asked for both directions at once, one end refuses with EINVAL (22) and opens nothing, unless the node already failed. -/
theorem C108_both_refused {n o : Option Int} {fd : Int} :
    makeFifo n o fd .bidirectional = (match n with
      | none => ⟨-1, -22⟩
      | some e => if e = 17 then ⟨-1, -22⟩ else ⟨-1, -e⟩) := by
  cases n with
  | none => rfl
  | some e => by_cases h : e = 17 <;> simp [makeFifo, makeNode, EEXIST, h, INVALID, EINVAL]

/-- Invariant of all interleavings. -/
structure Inv (e : Env) (s : St) : Prop where
  main : ∀ r, s.main = .done r → r = expected e.rNode e.rOpen e.rFd
  worker : ∀ w, s.worker = .done w → w = expected e.wNode e.wOpen e.wFd
  mainNode : s.main = .node → makeNode e.rNode = none
  workNode : s.worker = .node → makeNode e.wNode = none
  result : ∀ d, s.result = some d → s.main = .done d.reader ∧ s.worker = .done d.writer

theorem expected_of_node {n o : Option Int} {fd : Int} {rv : RV} (h : makeNode n = some rv) : rv = expected n o fd := by
  have := makeFifo_expected (n := n) (o := o) (fd := fd) (a := .reader) (by simp)
  simpa [makeFifo, h] using this

theorem expected_of_open {n o : Option Int} {fd : Int} (h : makeNode n = none) : opened o fd = expected n o fd := by
  have := makeFifo_expected (n := n) (o := o) (fd := fd) (a := .reader) (by simp)
  simpa [makeFifo, h] using this

theorem run_inv {e : Env} {s : St} (h : Run e s) : Inv e s := by
  induction h with
  | start => refine ⟨?_, ?_, ?_, ?_, ?_⟩ <;> simp [St.init]
  | step hr hs ih =>
    cases hs with
    | mainNode hm =>
      cases hn : makeNode e.rNode with
      | none =>
        refine ⟨by simp, ih.worker, fun _ => hn, ih.workNode, ?_⟩
        intro d hd
        have := (ih.result d hd).1
        rw [hm] at this; cases this
      | some rv =>
        refine ⟨?_, ih.worker, by simp, ih.workNode, ?_⟩
        · intro r hr'
          simp at hr'
          exact hr' ▸ expected_of_node hn
        · intro d hd
          have := (ih.result d hd).1
          rw [hm] at this; cases this
    | mainOpen hm =>
      refine ⟨?_, ih.worker, by simp, ih.workNode, ?_⟩
      · intro r hr'
        simp at hr'
        exact hr' ▸ expected_of_open (ih.mainNode hm)
      · intro d hd
        have := (ih.result d hd).1
        rw [hm] at this; cases this
    | workNode hm =>
      cases hn : makeNode e.wNode with
      | none =>
        refine ⟨ih.main, by simp, ih.mainNode, fun _ => hn, ?_⟩
        intro d hd
        have := (ih.result d hd).2
        rw [hm] at this; cases this
      | some rv =>
        refine ⟨ih.main, ?_, ih.mainNode, by simp, ?_⟩
        · intro r hr'
          simp at hr'
          exact hr' ▸ expected_of_node hn
        · intro d hd
          have := (ih.result d hd).2
          rw [hm] at this; cases this
    | workFail hm hx =>
      refine ⟨ih.main, ?_, ih.mainNode, by simp, ?_⟩
      · intro r hr'
        simp at hr'
        exact hr' ▸ expected_of_open (ih.workNode hm)
      · intro d hd
        have := (ih.result d hd).2
        rw [hm] at this; cases this
    | workOpen hm hx hb =>
      refine ⟨ih.main, ?_, ih.mainNode, by simp, ?_⟩
      · intro r hr'
        simp at hr'
        exact hr' ▸ expected_of_open (ih.workNode hm)
      · intro d hd
        have := (ih.result d hd).2
        rw [hm] at this; cases this
    | join hm hw hres =>
      refine ⟨ih.main, ih.worker, ih.mainNode, ih.workNode, ?_⟩
      intro d hd
      simp at hd
      subst hd
      exact ⟨hm, hw⟩

/-- C108: whatever the interleaving, the two ends that are returned are the expected ones. -/
theorem C108_result {e : Env} {s : St} (h : Run e s) {d : Ds} (hd : s.result = some d) :
    d = ⟨expected e.rNode e.rOpen e.rFd, expected e.wNode e.wOpen e.wFd⟩ := by
  have hi := run_inv h
  have := hi.result d hd
  obtain ⟨r, w⟩ := d
  have h1 := hi.main _ this.1
  have h2 := hi.worker _ this.2
  simp only at h1 h2
  rw [h1, h2]

/-- What is left to do. -/
def todo (s : St) : Nat :=
  (match s.main with | .start => 2 | .node => 1 | .done _ => 0) + (match s.worker with | .start => 2 | .node => 1 | .done _ => 0) +
  (match s.result with | none => 1 | some _ => 0)

/-- C108: every step makes progress, so every execution ends after at most five steps. -/
theorem C108_progress {e : Env} {s s' : St} (h : Step e s s') : todo s' < todo s := by
  cases h with
  | mainNode hm => simp only [todo, hm]; cases makeNode e.rNode <;> simp <;> omega
  | mainOpen hm => simp only [todo, hm]; omega
  | workNode hm => simp only [todo, hm]; cases makeNode e.wNode <;> simp <;> omega
  | workFail hm _ => simp only [todo, hm]; omega
  | workOpen hm _ _ => simp only [todo, hm]; omega
  | join _ _ hr => simp only [todo, hr]; omega

/-- The writer's `open` can end: it fails, need not wait, or gets a reader. -/
def WriterEnds (e : Env) : Prop :=
  makeNode e.wNode ≠ none ∨ e.wOpen ≠ none ∨ e.fifo = false ∨ e.ext = true ∨ (expected e.rNode e.rOpen e.rFd).status = 0

/-- C108: if the reader's end can be opened (or the writer need not wait), no execution gets stuck before it returns. -/
theorem C108_returns_partial {e : Env} (hw : WriterEnds e) {s : St} (h : Run e s) (hn : s.result = none) : ∃ s', Step e s s' := by
  have hi := run_inv h
  cases hm : s.main with
  | start => exact ⟨_, .mainNode hm⟩
  | node => exact ⟨_, .mainOpen hm⟩
  | done r =>
    cases hk : s.worker with
    | start => exact ⟨_, .workNode hk⟩
    | done w => exact ⟨_, .join hm hk hn⟩
    | node =>
      cases ho : e.wOpen with
      | some x => exact ⟨_, .workFail hk ho⟩
      | none =>
        refine ⟨_, .workOpen hk ho ?_⟩
        rcases hw with h1 | h1 | h1 | h1 | h1
        · exact absurd (hi.workNode hk) h1
        · exact absurd ho h1
        · exact .inl h1
        · exact .inr (.inl h1)
        · right; right
          have := hi.main r hm
          simp [St.readerOpen, hm, this, h1]

/-- C108 fails when the reader's end cannot be opened: nobody opens the pipe for reading, the writer waits, and the function never returns. -/
theorem C108_deadlock_violated {e : Env} (hw : ¬ WriterEnds e) :
    (∀ s, Run e s → s.result = none) ∧
    ∃ s, Run e s ∧ (∀ s', ¬ Step e s s') := by
  have h1 : makeNode e.wNode = none := by
    apply Classical.byContradiction; exact fun h => hw (.inl h)
  have h2 : e.wOpen = none := by
    apply Classical.byContradiction; exact fun h => hw (.inr (.inl h))
  have h3 : e.fifo = true := by
    cases hf : e.fifo with
    | true => rfl
    | false => exact absurd (.inr (.inr (.inl hf))) hw
  have h4 : e.ext = false := by
    cases hf : e.ext with
    | false => rfl
    | true => exact absurd (.inr (.inr (.inr (.inl hf)))) hw
  have h5 : (expected e.rNode e.rOpen e.rFd).status ≠ 0 := fun h => hw (.inr (.inr (.inr (.inr h))))
  have key : ∀ s, Run e s → (∀ w, s.worker ≠ .done w) ∧ s.result = none := by
    intro s hr
    induction hr with
    | start => simp [St.init]
    | step hr hs ih =>
      cases hs with
      | mainNode hm => exact ih
      | mainOpen hm => exact ih
      | workNode hm => simp [h1, ih.2]
      | workFail hm hx => rw [h2] at hx; cases hx
      | workOpen hm hx hb =>
        rcases hb with hb | hb | hb
        · rw [h3] at hb; cases hb
        · rw [h4] at hb; cases hb
        · unfold St.readerOpen at hb
          split at hb
          · rename_i rv hd
            have := (run_inv hr).main rv hd
            rw [this] at hb
            simp at hb
            exact absurd hb h5
          · cases hb
      | join hm hwd hn => exact absurd hwd (ih.1 _)
  refine ⟨fun s hr => (key s hr).2, ?_⟩
  have hstuck : ∀ r, r.status ≠ 0 → ∀ s', ¬ Step e ⟨.done r, .node, none⟩ s' := by
    intro r hr s' hs
    cases hs with
    | mainNode hm => cases hm
    | mainOpen hm => cases hm
    | workNode hm => cases hm
    | workFail hm hx => rw [h2] at hx; cases hx
    | workOpen hm hx hb =>
      rcases hb with hb | hb | hb
      · rw [h3] at hb; cases hb
      · rw [h4] at hb; cases hb
      · simp [St.readerOpen] at hb; exact hr hb
    | join hm hwd hn => cases hwd
  have s1 : Run e ⟨.start, .node, none⟩ := by
    have := Run.step (e := e) .start (.workNode rfl)
    simpa [St.init, h1] using this
  cases hn : makeNode e.rNode with
  | some rv =>
    have s2 : Run e ⟨.done rv, .node, none⟩ := by
      have := Run.step s1 (.mainNode rfl)
      simpa [hn] using this
    refine ⟨_, s2, hstuck rv ?_⟩
    rw [expected_of_node (o := e.rOpen) (fd := e.rFd) hn]
    exact h5
  | none =>
    have s2 : Run e ⟨.node, .node, none⟩ := by
      have := Run.step s1 (.mainNode rfl)
      simpa [hn] using this
    have s3 : Run e ⟨.done (opened e.rOpen e.rFd), .node, none⟩ := Run.step s2 (.mainOpen rfl)
    refine ⟨_, s3, hstuck _ ?_⟩
    rw [expected_of_open (n := e.rNode) hn]
    exact h5

/-- C108 fails for names of ordinary files: the result is success although there is no pipe. -/
theorem C108_ordinary_file_violated {e : Env} (h1 : e.rNode = some 17) (h2 : e.wNode = some 17) (h3 : e.rOpen = none) (h4 : e.wOpen = none)
    (hf : e.fifo = false) : ∃ s, Run e s ∧ s.result = some ⟨⟨e.rFd, 0⟩, ⟨e.wFd, 0⟩⟩ ∧ e.fifo = false := by
  have hn : makeNode (some 17) = none := by decide
  have s1 : Run e ⟨.node, .start, none⟩ := by
    have := Run.step (e := e) .start (.mainNode rfl)
    simpa [St.init, h1, hn] using this
  have s2 : Run e ⟨.done ⟨e.rFd, 0⟩, .start, none⟩ := by
    have := Run.step s1 (.mainOpen rfl)
    simpa [opened, h3] using this
  have s3 : Run e ⟨.done ⟨e.rFd, 0⟩, .node, none⟩ := by
    have := Run.step s2 (.workNode rfl)
    simpa [h2, hn] using this
  have s4 : Run e ⟨.done ⟨e.rFd, 0⟩, .done ⟨e.wFd, 0⟩, none⟩ := by
    have := Run.step s3 (.workOpen rfl h4 (.inl hf))
    simpa [opened, h4] using this
  exact ⟨_, Run.step s4 (.join rfl rfl rfl), rfl, hf⟩

/-! ## C109 -/

/-- C109: closing one end closes exactly its descriptor if it was opened, and passes on the error otherwise. -/
theorem C109_close_end {c : Option Int} {d : RV} (hc : ∀ x, c = some x → 0 < x) :
    (d.status = 0 → (commonClose c d).2 = some d.fd ∧ ((commonClose c d).1 = 0 ↔ c = none) ∧ (commonClose c d).1 ≤ 0) ∧
    (d.status ≠ 0 → commonClose c d = (d.status, none)) := by
  refine ⟨fun h => ?_, fun h => by simp [commonClose, h]⟩
  cases c with
  | none => simp [commonClose, h]
  | some x => have := hc x rfl; simp [commonClose, h]; omega

/-- C109 fails: destroying a pipe never closes the reader's end (unless both ends are the same descriptor), yet reports its descriptor as gone and success. -/
theorem C109_reader_violated {c : Option Int} {d : Ds} (hr : d.reader.status = 0) (hne : d.reader.fd ≠ d.writer.fd) :
    d.reader.fd ∉ (destroyNamedPipe c d).2 ∧ (destroyNamedPipe c d).1.reader = ⟨-1, 0⟩ := by
  refine ⟨?_, by simp [destroyNamedPipe, hr, INVALID]⟩
  simp only [destroyNamedPipe, commonClose]
  split
  · simp [hne]
  · simp

/-- C109: the writer's end is closed exactly when it was opened, once. -/
theorem C109_writer_partial {c : Option Int} {d : Ds} :
    (destroyNamedPipe c d).2 = (if d.writer.status = 0 then [d.writer.fd] else []) ∧
    (destroyNamedPipe c d).1.writer = ⟨-1, (commonClose c d.writer).1⟩ := by
  refine ⟨?_, rfl⟩
  simp only [destroyNamedPipe, commonClose]
  split <;> simp

/-- C109 fails for a pipe made for reading: destroying it closes descriptor 0, which does not belong to it. -/
theorem C109_foreign_violated {n o c : Option Int} {fd : Int} :
    ∃ d, makeNamedPipe n o fd .reader = some d ∧ (destroyNamedPipe c d).2 = [0] :=
  ⟨_, rfl, by simp [destroyNamedPipe, commonClose, Ds.dflt, RV.dflt]⟩

/-! ## Examples -/

/-- A system in which everything works. -/
def good : Env := ⟨none, none, some 17, none, false, true, 3, 4⟩
/-- The reader's `open` fails (no more descriptors). -/
def bad : Env := { good with rOpen := some 24 }

example : WriterEnds good := .inr (.inr (.inr (.inr (by decide))))
example : ¬ WriterEnds bad := by simp [WriterEnds, bad, good, makeNode, EEXIST, expected]

/-- The pipe with both ends. -/
example : ∃ s, Run good s ∧ s.result = some ⟨⟨3, 0⟩, ⟨4, 0⟩⟩ :=
  ⟨_, .step (.step (.step (.step (.step .start (.workNode rfl)) (.mainNode rfl)) (.mainOpen rfl))
    (.workOpen rfl rfl (.inr (.inr rfl)))) (.join rfl rfl rfl), rfl⟩

example : destroyNamedPipe none ⟨⟨3, 0⟩, ⟨4, 0⟩⟩ = (⟨⟨-1, 0⟩, ⟨-1, 0⟩⟩, [4]) := by decide
example : makeFifo (some 13) none 3 .reader = ⟨-1, -13⟩ := by decide

namespace Flame.Fifo
example := C108_end (n := some 17) (o := some 24) (fd := 3) (a := .reader) (by decide) (by rintro _ ⟨⟩; decide) (by rintro _ ⟨⟩; decide)
  (by decide)
private theorem good_run : Run good ⟨.done ⟨3, 0⟩, .done ⟨4, 0⟩, some ⟨⟨3, 0⟩, ⟨4, 0⟩⟩⟩ :=
  .step (.step (.step (.step (.step .start (.workNode rfl)) (.mainNode rfl)) (.mainOpen rfl))
    (.workOpen rfl rfl (.inr (.inr rfl)))) (.join rfl rfl rfl)
example := C108_result good_run rfl
example := C108_progress (e := good) (s := ⟨.start, .start, none⟩) (.workNode rfl)
example := C108_returns_partial (e := good) (.inr (.inr (.inr (.inr (by decide))))) .start rfl
example := C108_deadlock_violated (e := bad) (by simp [WriterEnds, bad, good, makeNode, EEXIST, expected])
example := C108_ordinary_file_violated (e := ⟨some 17, none, some 17, none, false, false, 3, 4⟩) rfl rfl rfl rfl rfl
example := C109_close_end (c := some 5) (d := ⟨3, 0⟩) (by rintro _ ⟨⟩; decide)
example := C109_reader_violated (c := none) (d := ⟨⟨3, 0⟩, ⟨4, 0⟩⟩) rfl (by decide)
end Flame.Fifo

end Flame.Fifo
