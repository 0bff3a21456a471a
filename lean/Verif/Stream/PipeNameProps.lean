import Verif.Stream.PipeName

/-!
# C163: the file of a named pipe is removed when its owner asked for it, and no other file is
-/

namespace Flame
open Own (upd upd_self upd_ne runPre)
open PipeName
open Own.FileS (readBool)

namespace PipeName

/-- The object's flag. -/
def flag (s : St) (i : Nat) : Option Bool := (s.vars i).bind W.del

/-- The object's name. -/
def nameOf (s : St) (i : Nat) : Option Name := (s.vars i).bind W.fname

/-- The program makes writers by name and does not go on with one that failed to open if it is to delete its pipe; it moves only writers that delete
nothing, and replaces or renames only such; it opens for deletion only under the name the object was made with; it destroys no writer that
was never told whether to delete. -/
def careful (s : St) (o : Op) : Prop :=
  pre s o ∧ match o with
    | .make _ _ del ok => del = false ∨ ok = true
    | .moveCtor _ j => flag s j = some false
    | .moveAssign i j => i ≠ j ∧ flag s j = some false ∧ dueOf (s.has i) = []
    | .open i n del ok => dueOf (s.has i) = [] ∧ (ok = false ∨ del = false ∨ nameOf s i = some n)
    | .setName i _ del => dueOf (s.has i) = [] ∧ del = false
    | .drop i => flag s i ≠ none
    | .default _ => True

instance (s : St) (o : Op) : Decidable (careful s o) := by
  cases o <;> unfold careful <;> infer_instance

/-- An object's flag and name agree with the pipe it has. -/
def Fits (w : W) (h : Option (Name × Bool)) : Prop :=
  (w.del = some true → ∃ n, w.fname = some n ∧ h = some (n, true)) ∧ (w.del ≠ some true → dueOf h = [])

structure Inv (s : St) : Prop where
  same : s.log = s.due
  fits : ∀ i w, s.vars i = some w → Fits w (s.has i)

theorem fits_upd {v : Nat → Option W} {h : Nat → Option (Name × Bool)} {i : Nat} {x : Option W} {y : Option (Name × Bool)}
    (hi : ∀ k w, v k = some w → Fits w (h k)) (hx : ∀ w, x = some w → Fits w y) : ∀ k w, upd v i x k = some w → Fits w (upd h i y k) := by
  intro k w hk
  by_cases e : k = i
  · subst e
    rw [upd_self] at hk ⊢
    exact hx w hk
  · rw [upd_ne _ _ e] at hk ⊢
    exact hi k w hk

theorem not_due {s : St} (h : Inv s) {i : Nat} (hf : flag s i = some false) : dueOf (s.has i) = [] := by
  unfold flag at hf
  cases hv : s.vars i with
  | none => rw [hv] at hf; cases hf
  | some w =>
    rw [hv] at hf
    exact (h.fits i w hv).2 (by rw [show w.del = some false from hf]; decide)

theorem inv_step {ind : Option Bool} {s s' : St} {o : Op} (h : Inv s) (hp : careful s o) (hs : step ind s o = .ok s') : Inv s' := by
  obtain ⟨hp, hc⟩ := hp
  cases o with
  | default i =>
    simp only [step, Res.ok.injEq] at hs
    subst hs
    exact ⟨h.same, fits_upd h.fits fun w hw => by cases hw; exact ⟨fun e => (by cases e), fun _ => rfl⟩⟩
  | make i n del ok =>
    simp only [step, Res.ok.injEq] at hs
    subst hs
    refine ⟨h.same, fits_upd h.fits fun w hw => ?_⟩
    cases hw
    rcases hc with rfl | rfl
    · refine ⟨fun e => by simp [W.make] at e, fun _ => ?_⟩
      cases ok <;> rfl
    · cases del
      · exact ⟨fun e => by simp [W.make] at e, fun _ => rfl⟩
      · exact ⟨fun _ => ⟨n, rfl, rfl⟩, fun e => absurd rfl e⟩
  | moveCtor i j =>
    have hj := not_due h hc
    replace hc : flag s j = some false := hc
    unfold flag at hc
    cases hv : s.vars j with
    | none => rw [hv] at hc; cases hc
    | some w =>
      rw [hv] at hc
      have hd : w.del = some false := hc
      simp only [step, hv, W.moveCtor, readBool, hd, Res.ok.injEq] at hs
      subst hs
      refine ⟨h.same, fits_upd (fits_upd h.fits fun w hw => ?_) fun w hw => ?_⟩
      · cases hw
        exact ⟨fun e => by simp at e, fun _ => hj⟩
      · cases hw
        exact ⟨fun e => by simp at e, fun _ => rfl⟩
  | moveAssign i j =>
    obtain ⟨hij, hf, hd⟩ := hc
    have hj := not_due h hf
    unfold flag at hf
    cases hv : s.vars j with
    | none => rw [hv] at hf; cases hf
    | some w =>
      cases hu : s.vars i with
      | none => exact absurd hu hp.1
      | some x =>
        rw [hv] at hf
        have hdel : w.del = some false := hf
        simp only [step, hv, hu, hij, if_false, W.moveAssign, readBool, hdel, Res.ok.injEq, hd, List.nil_append] at hs
        subst hs
        refine ⟨h.same, fits_upd (fits_upd h.fits fun w hw => ?_) fun w hw => ?_⟩
        · cases hw
          exact ⟨fun e => by simp at e, fun _ => hj⟩
        · cases hw
          exact ⟨fun e => by simp at e, fun _ => rfl⟩
  | «open» i n del ok =>
    obtain ⟨hd, hn⟩ := hc
    cases hv : s.vars i with
    | none => exact absurd hv hp
    | some w =>
      simp only [step, hv, hd, List.nil_append, Res.ok.injEq] at hs
      subst hs
      refine ⟨h.same, fits_upd h.fits fun x hx => ?_⟩
      cases hx
      cases ok
      · refine ⟨fun e => ?_, fun _ => rfl⟩
        obtain ⟨m, _, hm⟩ := (h.fits i w hv).1 e
        rw [hm] at hd
        cases hd
      · cases del
        · exact ⟨fun e => by simp [W.open] at e, fun _ => rfl⟩
        · refine ⟨fun _ => ⟨n, ?_, rfl⟩, fun e => absurd rfl e⟩
          rcases hn with hn | hn | hn
          · cases hn
          · cases hn
          · simpa [nameOf, hv, W.open] using hn
  | setName i n del =>
    obtain ⟨hd, rfl⟩ := hc
    cases hv : s.vars i with
    | none => exact absurd hv hp
    | some w =>
      simp only [step, hv, Res.ok.injEq] at hs
      subst hs
      refine ⟨h.same, fits_upd h.fits fun x hx => ?_⟩
      cases hx
      refine ⟨fun e => by simp [W.setName] at e, fun _ => ?_⟩
      cases s.has i <;> rfl
  | drop i =>
    cases hv : s.vars i with
    | none => exact absurd hv hp
    | some w =>
      have hf := h.fits i w hv
      have hne : w.del ≠ none := by simpa [flag, hv] using hc
      cases hd : w.del with
      | none => exact absurd hd hne
      | some b =>
        cases b with
        | false =>
          simp only [step, hv, W.destroy, readBool, hd, Res.ok.injEq, hf.2 (by simp [hd]), List.nil_append] at hs
          subst hs
          exact ⟨h.same, fits_upd h.fits fun x hx => by cases hx⟩
        | true =>
          obtain ⟨n, hn, hh⟩ := hf.1 hd
          simp only [step, hv, W.destroy, readBool, hd, hn, hh, dueOf, Res.ok.injEq, List.cons_append, List.nil_append] at hs
          subst hs
          exact ⟨by simp [h.same], fits_upd h.fits fun x hx => by cases hx⟩

theorem reach_inv {ind : Option Bool} {s : St} (h : Own.Reach (step ind) careful start s) : Inv s :=
  h.inv ⟨rfl, fun i w hw => by cases hw⟩ fun _ _ _ => inv_step

end PipeName

/-- **C163 (writers).** Over every careful history the names that were removed are those of the pipes that were to be deleted and whose writer is
gone, in that order and each as often; and no step is undefined. Missing: moving a writer that deletes its pipe, opening another name,
failures, streams (below). -/
theorem C163_writers_partial {ind : Option Bool} {s : PipeName.St} (h : Own.Reach (PipeName.step ind) PipeName.careful PipeName.start s) :
    s.log = s.due ∧ ∀ o, PipeName.careful s o → ∃ s', PipeName.step ind s o = .ok s' := by
  have hi := PipeName.reach_inv h
  refine ⟨hi.same, fun o ho => ?_⟩
  obtain ⟨hp, hc⟩ := ho
  cases o with
  | default i | make i n del ok => exact ⟨_, rfl⟩
  | moveCtor i j =>
    cases hv : s.vars j with
    | none => exact absurd hv hp.2
    | some w =>
      have hd : w.del = some false := by simpa [PipeName.flag, hv] using hc
      exact ⟨_, by simp only [PipeName.step, hv, W.moveCtor, Own.FileS.readBool, hd]; rfl⟩
  | moveAssign i j =>
    obtain ⟨hij, hf, _⟩ := hc
    cases hv : s.vars j with
    | none => exact absurd hv hp.2
    | some w =>
      cases hu : s.vars i with
      | none => exact absurd hu hp.1
      | some x =>
        have hd : w.del = some false := by simpa [PipeName.flag, hv] using hf
        exact ⟨_, by simp only [PipeName.step, hv, hu, hij, if_false, W.moveAssign, Own.FileS.readBool, hd]; rfl⟩
  | «open» i n del ok =>
    cases hv : s.vars i with
    | none => exact absurd hv hp
    | some w => exact ⟨_, by simp only [PipeName.step, hv]; rfl⟩
  | setName i n del =>
    cases hv : s.vars i with
    | none => exact absurd hv hp
    | some w => exact ⟨_, by simp only [PipeName.step, hv]; rfl⟩
  | drop i =>
    cases hv : s.vars i with
    | none => exact absurd hv hp
    | some w =>
      cases hd : w.del with
      | none => simp [PipeName.flag, hv, hd] at hc
      | some b =>
        cases b with
        | false => exact ⟨_, by simp only [PipeName.step, hv, W.destroy, Own.FileS.readBool, hd]; rfl⟩
        | true =>
          obtain ⟨n, hn, _⟩ := (hi.fits i w hv).1 hd
          exact ⟨_, by simp only [PipeName.step, hv, W.destroy, Own.FileS.readBool, hd, hn]; rfl⟩

/-- A history with a deletion, a pipe that stays, a move of the latter and a second opening under the same name. -/
example : ∃ s, Own.Reach (PipeName.step none) PipeName.careful PipeName.start s ∧ (s.log, s.due) = ([['a']], [['a']]) :=
  Own.Reach.witness (step := PipeName.step none) (pre := PipeName.careful) (s₀ := PipeName.start)
    [.make 0 ['a'] false true, .open 0 ['a'] true true, .make 1 ['b'] false true, .moveCtor 2 1, .drop 1, .drop 0, .setName 2 ['c'] false, .drop 2]
    (fun s => (s.log, s.due)) _ (by decide +kernel)

/-- **C163 fails: moving a writer.** A writer that has pipe `n` and is to delete it is moved into a new one: both are destroyed, and the
new one calls `remove(nullptr)`; before that nothing was removed. -/
theorem C163_move_violated {ind : Option Bool} {s : PipeName.St} {i j : Nat} (hij : i ≠ j) {n : Name} (hi : s.vars i = none)
    (hj : s.vars j = some (W.make n true)) :
    (runPre (PipeName.step ind) PipeName.pre s [.moveCtor i j, .drop j]).map (fun u => (u.has i, u.log, PipeName.step ind u (.drop i))) =
      some (s.has j, s.log, .ub) := by
  simp [runPre, PipeName.pre, PipeName.step, hi, hj, W.moveCtor, W.make, readBool, W.destroy, upd_ne _ _ hij]

example : ∃ s, Own.Reach (PipeName.step none) PipeName.careful PipeName.start s ∧ s.vars 0 = some (W.make ['a'] true) :=
  Own.Reach.witness (step := PipeName.step none) (pre := PipeName.careful) (s₀ := PipeName.start) [.make 0 ['a'] true true] (fun s => s.vars 0) _
    (by decide +kernel)

/-- **C163 fails: assigning a writer.** `x = move(y)`, where `x` was to keep its pipe `m` and `y` to delete its pipe `n`: when both are gone `m` has been
removed, `n` was to be. -/
theorem C163_assign_violated {ind : Option Bool} {s : PipeName.St} {i j : Nat} (hij : i ≠ j) {m n : Name} (hi : s.vars i = some (W.make m false))
    (hj : s.vars j = some (W.make n true)) (hhi : s.has i = some (m, false)) (hhj : s.has j = some (n, true)) :
    (runPre (PipeName.step ind) PipeName.pre s [.moveAssign i j, .drop j, .drop i]).map (fun u => (u.log, u.due)) =
      some (m :: s.log, n :: s.due) := by
  simp [runPre, PipeName.pre, PipeName.step, hi, hj, hij, hhi, hhj, W.moveAssign, W.make, readBool, W.destroy, fromRaw, dueOf, upd_ne _ _ hij]

/-- **C163 fails: opening.** A writer made for `m`, to be kept, is opened for `n`, to be deleted: at its end `m` is removed, not `n`. -/
theorem C163_open_violated {ind : Option Bool} {s : PipeName.St} {i : Nat} {m n : Name} (hi : s.vars i = some (W.make m false))
    (hh : s.has i = some (m, false)) :
    (runPre (PipeName.step ind) PipeName.pre s [.open i n true true, .drop i]).map (fun u => (u.log, u.due)) = some (m :: s.log, n :: s.due) := by
  simp [runPre, PipeName.pre, PipeName.step, hi, hh, W.open, W.make, readBool, W.destroy, fromRaw, dueOf]

example : ∃ s, Own.Reach (PipeName.step none) PipeName.careful PipeName.start s ∧
    (s.vars 0, s.has 0, s.vars 1, s.has 1) = (some (W.make ['a'] false), some (['a'], false), some (W.make ['b'] true), some (['b'], true)) :=
  Own.Reach.witness (step := PipeName.step none) (pre := PipeName.careful) (s₀ := PipeName.start)
    [.make 0 ['a'] false true, .make 1 ['b'] true true] (fun s => (s.vars 0, s.has 0, s.vars 1, s.has 1)) _ rfl

/-- **C163 fails: a default writer.** Opened for deletion it ends with `remove(nullptr)`; never opened, its end reads a flag nobody set. -/
theorem C163_default_violated {ind : Option Bool} {s : PipeName.St} {i : Nat} {n : Name} (hi : s.vars i = some W.default) :
    PipeName.step none s (.drop i) = .ub ∧
    (runPre (PipeName.step ind) PipeName.pre s [.open i n true true]).map (fun u => (u.has i, PipeName.step ind u (.drop i))) =
      some (some (n, true), .ub) := by
  constructor <;> simp [runPre, PipeName.pre, PipeName.step, hi, W.open, W.default, W.destroy, readBool]

/-- **C163 fails: a writer that could not open its pipe** removes the file of that name all the same. -/
theorem C163_failed_violated {ind : Option Bool} {s : PipeName.St} {i : Nat} {n : Name} (hi : s.vars i = none) :
    (runPre (PipeName.step ind) PipeName.pre s [.make i n true false]).map (fun u => u.has i) = some none ∧
    (runPre (PipeName.step ind) PipeName.pre s [.make i n true false, .drop i]).map (fun u => (u.log, u.due)) = some (n :: s.log, s.due) := by
  constructor <;> simp [runPre, PipeName.pre, PipeName.step, hi, W.make, W.destroy, readBool, fromRaw, dueOf]

/-- **C163 fails: assigning a writer to itself** makes it forget that it is to delete its pipe. -/
theorem C163_self_violated {ind : Option Bool} {s : PipeName.St} {i : Nat} {n : Name} (hi : s.vars i = some (W.make n true))
    (hh : s.has i = some (n, true)) :
    (runPre (PipeName.step ind) PipeName.pre s [.moveAssign i i, .drop i]).map (fun u => (u.log, u.due)) = some (s.log, n :: s.due) := by
  simp [runPre, PipeName.pre, PipeName.step, hi, hh, W.selfAssign, W.make, W.destroy, readBool, fromRaw, dueOf]

/-- **C163 fails: names.** Whatever name is set, the writer's name is the directory `/tmp/`, which is what it removes at its end; and a reader's
name is the prefix and the name it was given, not the name of the pipe it opened. -/
theorem C163_names_violated (w : W) (n : Name) (ind : Option Bool) :
    (∀ del, (w.setName n del).getName = some "/tmp/".toList) ∧ (w.setName n true).destroy ind = .ok ["/tmp/".toList] ∧
    (w.setName n false).destroy ind = .ok [] ∧ (W.make n true).getName = some n ∧
    (readerMake n).1 = n ∧ (readerMake n).2 = some ("/tmp/".toList ++ n) ∧ (readerMake n).2 ≠ some (readerMake n).1 := by
  refine ⟨fun _ => rfl, rfl, rfl, rfl, rfl, rfl, fun h => ?_⟩
  have := congrArg (fun o => (o.map List.length).getD 0) h
  simp [readerMake, concatRaw, fromRaw, pfx] at this
  omega

namespace PipeName

/-- The names a stream's writer can have. -/
def Only (o : Option Name) : Prop := o = none ∨ o = some pfx

structure SInv (s : SSt) : Prop where
  vars : ∀ i w, s.vars i = some w → Only w.fname
  log : ∀ n ∈ s.log, n = pfx

theorem only_upd {v : Nat → Option W} {i : Nat} {x : Option W} (hi : ∀ k w, v k = some w → Only w.fname) (hx : ∀ w, x = some w → Only w.fname) :
    ∀ k w, upd v i x k = some w → Only w.fname := by
  intro k w hk
  by_cases e : k = i
  · subst e
    rw [upd_self] at hk
    exact hx w hk
  · rw [upd_ne _ _ e] at hk
    exact hi k w hk

theorem moveAssign_only {ind : Option Bool} {x y x' y' : W} (h : x.moveAssign ind y = .ok (x', y')) : x'.fname = x.fname ∧ y'.fname = y.fname := by
  unfold W.moveAssign at h
  split at h <;> simp only [Res.ok.injEq, Prod.mk.injEq, reduceCtorEq] at h
  obtain ⟨rfl, rfl⟩ := h
  exact ⟨rfl, rfl⟩

theorem destroy_only {ind : Option Bool} {w : W} {l : List Name} (h : w.destroy ind = .ok l) (hw : Only w.fname) : ∀ n ∈ l, n = pfx := by
  unfold W.destroy at h
  split at h
  · split at h <;> simp only [Res.ok.injEq, reduceCtorEq] at h
    subst h
    rename_i m hm
    intro n hn
    rw [List.mem_singleton] at hn
    subst hn
    rcases hw with hw | hw <;> rw [hm] at hw <;> cases hw
    rfl
  · simp only [Res.ok.injEq] at h
    subst h
    intro n hn
    cases hn
  · cases h
  · cases h

theorem deinit_only {ind : Option Bool} {w x : W} {l : List Name} (h : deinit ind w = .ok (x, l)) : x.fname = w.fname ∧ l = [] := by
  unfold deinit at h
  split at h
  · rename_i x' tmp hm
    have := moveAssign_only hm
    split at h <;> simp only [Res.ok.injEq, Prod.mk.injEq, reduceCtorEq] at h
    rename_i l' hd
    obtain ⟨rfl, rfl⟩ := h
    refine ⟨this.1, ?_⟩
    have ht : tmp.del = some false := by
      unfold W.moveAssign at hm
      split at hm <;> simp only [Res.ok.injEq, Prod.mk.injEq, reduceCtorEq] at hm
      rw [← hm.2]
    simpa [W.destroy, readBool, ht] using hd.symm
  · cases h
  · cases h

theorem sinv_step {ind : Option Bool} {s s' : SSt} {o : SOp} (h : SInv s) (hs : sstep ind s o = .ok s') : SInv s' := by
  have happ {l : List Name} (hl : ∀ n ∈ l, n = pfx) : ∀ n ∈ l ++ s.log, n = pfx := by
    intro n hn
    rcases List.mem_append.mp hn with hn | hn
    · exact hl n hn
    · exact h.log n hn
  cases o with
  | default i =>
    simp only [sstep, Res.ok.injEq] at hs
    subst hs
    exact ⟨only_upd h.vars fun w hw => by cases hw; exact .inl rfl, h.log⟩
  | make i n del =>
    simp only [sstep, Res.ok.injEq] at hs
    subst hs
    exact ⟨only_upd h.vars fun w hw => by cases hw; exact .inr rfl, h.log⟩
  | moveCtor i j =>
    simp only [sstep] at hs
    split at hs
    · rename_i w hv
      unfold W.moveCtor at hs
      split at hs <;> simp only [Res.ok.injEq, reduceCtorEq] at hs <;> rename_i he
      · split at he <;> simp only [Res.ok.injEq, Prod.mk.injEq, reduceCtorEq] at he
        obtain ⟨rfl, rfl⟩ := he
        subst hs
        exact ⟨only_upd (only_upd h.vars fun w hw => by cases hw; exact .inl rfl) fun x hx => by cases hx; exact h.vars j w hv, h.log⟩
    · cases hs
  | moveAssign i j =>
    simp only [sstep] at hs
    split at hs
    · rename_i x y hx hy
      split at hs
      · rename_i x' l hd
        obtain ⟨hx', rfl⟩ := deinit_only hd
        have hox : Only x'.fname := by rw [hx']; exact h.vars i x hx
        by_cases e : i = j
        · simp only [e, if_true] at hs
          unfold W.selfAssign at hs
          split at hs <;> simp only [Res.ok.injEq, reduceCtorEq] at hs <;> rename_i he
          split at he <;> simp only [Res.ok.injEq, reduceCtorEq] at he
          subst he hs
          exact ⟨only_upd h.vars fun w hw => by cases hw; exact hox, h.log⟩
        · simp only [e, if_false] at hs
          split at hs <;> simp only [Res.ok.injEq, reduceCtorEq] at hs
          rename_i x'' y'' hm
          obtain ⟨h1, h2⟩ := moveAssign_only hm
          subst hs
          exact ⟨only_upd (only_upd h.vars fun w hw => by cases hw; rw [h1]; exact hox) fun w hw => by cases hw; rw [h2]; exact h.vars j y hy, h.log⟩
      · cases hs
      · cases hs
    · cases hs
  | «open» i n del =>
    simp only [sstep] at hs
    split at hs
    · split at hs <;> simp only [Res.ok.injEq, reduceCtorEq] at hs
      rename_i w' l hd
      obtain ⟨_, rfl⟩ := deinit_only hd
      subst hs
      exact ⟨only_upd h.vars fun w hw => by cases hw; exact .inr rfl, h.log⟩
    · cases hs
  | drop i =>
    simp only [sstep] at hs
    split at hs
    · rename_i w hv
      split at hs
      · rename_i w' l hd
        obtain ⟨hw, rfl⟩ := deinit_only hd
        split at hs <;> simp only [Res.ok.injEq, reduceCtorEq] at hs
        rename_i m hm
        subst hs
        refine ⟨only_upd h.vars fun w hw => (by cases hw), ?_⟩
        rw [List.append_nil]
        exact happ (destroy_only hm (by rw [hw]; exact h.vars i w hv))
      · cases hs
      · cases hs
    · cases hs

end PipeName

/-- **C163 fails: streams.** Whatever the indeterminate flags read as, over every history of pipe streams, with and without deletion, no name but the
directory's is ever removed: the file of a stream's pipe stays, and no stream knows its pipe's name. -/
theorem C163_stream_violated {ind : Option Bool} {s : PipeName.SSt} (h : Own.Reach (PipeName.sstep ind) PipeName.spre PipeName.sstart s) :
    (∀ n ∈ s.log, n = "/tmp/".toList) ∧ ∀ i w, s.vars i = some w → ∀ n, w.getName = some n → n = "/tmp/".toList := by
  have hi : PipeName.SInv s := h.inv ⟨fun i w hw => (by cases hw), fun n hn => (by cases hn)⟩ fun _ _ _ h _ hs => PipeName.sinv_step h hs
  refine ⟨hi.log, fun i w hw n hn => ?_⟩
  rcases hi.vars i w hw with e | e
  · rw [W.getName, e] at hn; cases hn
  · rw [W.getName, e] at hn; cases hn; rfl

/-- A stream whose pipe was to be deleted tries to remove the directory. -/
example : ∃ s, Own.Reach (PipeName.sstep (some true)) PipeName.spre PipeName.sstart s ∧ s.log = ["/tmp/".toList] :=
  Own.Reach.witness (step := PipeName.sstep (some true)) (pre := PipeName.spre) (s₀ := PipeName.sstart)
    [.make 0 ['a'] false, .drop 0] (fun s => s.log) _ (by decide +kernel)

/-- Streams moved into new and into existing ones: the name stays where it was. -/
example : ∃ s, Own.Reach (PipeName.sstep (some true)) PipeName.spre PipeName.sstart s ∧
    [0, 1, 2].map (fun i => (s.vars i).map W.getName) = [some (some "/tmp/".toList), some none, some none] :=
  Own.Reach.witness (step := PipeName.sstep (some true)) (pre := PipeName.spre) (s₀ := PipeName.sstart)
    [.make 0 ['a'] false, .moveCtor 1 0, .default 2, .moveAssign 2 1] (fun s => [0, 1, 2].map (fun i => (s.vars i).map W.getName)) _ (by decide +kernel)

/-- **C163 (status).** `NamedPipeWriter::open` reports success exactly when the pipe was opened, and otherwise -1 whatever the error was;
`NamedPipeStream::open` reports success whatever happened. -/
theorem C163_status_violated (w : W) (n : Name) (del ok : Bool) (d : Fifo.Ds) :
    ((w.open n del ok).2 = 0 ↔ ok = true) ∧ (ok = false → (w.open n del ok).2 = -1 ∧ (w.open n del ok).1 = w) ∧ sopenStatus d = 0 := by
  cases ok <;> simp [W.open, Fifo.INVALID, sopenStatus]

example : (W.default.open ['a'] true false).2 = -1 := rfl

namespace Flame
open PipeName Own
abbrev twoPipes : PipeName.St := (visit (PipeName.step none) PipeName.pre PipeName.start
  ([.make 0 ['a'] false true, .make 1 ['b'] true true, .default 2] : List PipeName.Op))
example := C163_assign_violated (ind := some true) (s := twoPipes) (i := 0) (j := 1) (by decide) rfl rfl rfl rfl
example := C163_default_violated (ind := some true) (s := twoPipes) (i := 2) (n := ['c']) rfl
example := C163_failed_violated (ind := none) (s := twoPipes) (i := 3) (n := ['c']) rfl
example := C163_self_violated (ind := none) (s := twoPipes) (i := 1) rfl rfl
end Flame

end Flame
