import Verif.Own.Symbols

/-!
# C161: symbols found are the library's, and stay valid as long as an object for it lives
-/

namespace Flame
open Own Own.Sym

namespace SymLemmas

structure Inv (s : Sym.St) : Prop where
  len : ∀ l, s.refs l = (s.who l).length
  nodup : ∀ l, (s.who l).Nodup
  mem : ∀ i l, i ∈ s.who l ↔ s.vars i = some (.cell (some l))

theorem inv_start : Inv Sym.start := ⟨fun _ => rfl, fun _ => List.nodup_nil, fun _ _ => by simp [Sym.start]⟩

/-- A variable that refers to no library takes another value that refers to none. -/
theorem inv_idle {s : Sym.St} (h : Inv s) {i : Nat} {x : Option Lib.Handle} (hi : ∀ l, s.vars i ≠ some (.cell (some l))) (hx : ∀ l, x ≠ some (.cell (some l))) :
    Inv { s with vars := upd s.vars i x } := by
  refine ⟨h.len, h.nodup, fun j l => ?_⟩
  simp only
  by_cases e : j = i
  · subst e
    rw [upd_self, h.mem]
    exact ⟨fun hc => absurd hc (hi l), fun hc => absurd hc (hx l)⟩
  · rw [upd_ne _ _ e]; exact h.mem j l

/-- The library of `j` passes to `i`, which had none. -/
theorem inv_pass {s : Sym.St} (h : Inv s) {i j l : Nat} (hij : i ≠ j) (hi : ∀ l, s.vars i ≠ some (.cell (some l))) (hj : s.vars j = some (.cell (some l))) :
    Inv ⟨upd (upd s.vars i (some (.cell (some l)))) j (some .null), s.refs, upd s.who l (i :: (s.who l).erase j)⟩ := by
  have hjw : j ∈ s.who l := (h.mem j l).2 hj
  have hiw : ∀ m, i ∉ s.who m := fun m hm => hi m ((h.mem i m).1 hm)
  refine ⟨fun m => ?_, fun m => ?_, fun k m => ?_⟩
  · by_cases e : m = l
    · subst e
      simp only [upd_self, List.length_cons, List.length_erase_of_mem hjw]
      have := List.length_pos_of_mem hjw
      rw [h.len]; omega
    · simp only [upd_ne _ _ e]; exact h.len m
  · by_cases e : m = l
    · subst e
      simp only [upd_self, List.nodup_cons]
      exact ⟨fun hm => hiw m (List.mem_of_mem_erase hm), (h.nodup m).erase j⟩
    · simp only [upd_ne _ _ e]; exact h.nodup m
  · by_cases ek : k = j
    · subst ek
      simp only [upd_self]
      by_cases e : m = l
      · subst e
        simp only [upd_self, List.mem_cons]
        constructor
        · rintro (h1 | h1)
          · exact absurd h1.symm hij
          · exact absurd rfl ((h.nodup m).mem_erase_iff.1 h1).1
        · intro h1; cases h1
      · simp only [upd_ne _ _ e]
        rw [h.mem, hj]
        constructor
        · intro h1; injection h1 with h1; injection h1 with h1; injection h1 with h1; exact absurd h1.symm e
        · intro h1; cases h1
    · simp only [upd_ne _ _ ek]
      by_cases ei : k = i
      · subst ei
        simp only [upd_self]
        by_cases e : m = l
        · subst e; simp
        · simp only [upd_ne _ _ e]
          constructor
          · intro h1; exact absurd h1 (hiw m)
          · intro h1; injection h1 with h1; injection h1 with h1; injection h1 with h1; exact absurd h1.symm e
      · simp only [upd_ne _ _ ei]
        by_cases e : m = l
        · subst e
          simp only [upd_self, List.mem_cons, (h.nodup m).mem_erase_iff, ← h.mem]
          constructor
          · rintro (h1 | h1)
            · exact absurd h1 ei
            · exact h1.2
          · intro h1; exact .inr ⟨ek, h1⟩
        · simp only [upd_ne _ _ e]; exact h.mem k m

theorem inv_step {s s' : Sym.St} {o : Sym.Op} (h : Inv s) (hp : Sym.pre s o) (hs : Sym.step s o = .ok s') : Inv s' := by
  cases o with
  | create i =>
    simp only [Sym.step, Res.ok.injEq] at hs; subst hs
    exact inv_idle h (by rw [show s.vars i = none from hp]; simp) (by simp)
  | load i f =>
    have hi : s.vars i = none := hp
    cases f with
    | none =>
      simp only [Sym.step, Res.ok.injEq] at hs; subst hs
      exact inv_idle h (by rw [hi]; simp) (by simp)
    | some l =>
      simp only [Sym.step, Res.ok.injEq] at hs; subst hs
      have hiw : ∀ m, i ∉ s.who m := fun m hm => by have := (h.mem i m).1 hm; rw [hi] at this; cases this
      refine ⟨fun m => ?_, fun m => ?_, fun k m => ?_⟩
      · by_cases e : m = l
        · subst e; simp [h.len]
        · simp only [upd_ne _ _ e]; exact h.len m
      · by_cases e : m = l
        · subst e; simp [h.nodup, hiw]
        · simp only [upd_ne _ _ e]; exact h.nodup m
      · by_cases ek : k = i
        · subst ek
          simp only [upd_self]
          by_cases e : m = l
          · subst e; simp
          · simp only [upd_ne _ _ e]
            constructor
            · intro h1; exact absurd h1 (hiw m)
            · intro h1; injection h1 with h1; injection h1 with h1; injection h1 with h1; exact absurd h1.symm e
        · simp only [upd_ne _ _ ek]
          by_cases e : m = l
          · subst e; simp [h.mem, ek]
          · simp only [upd_ne _ _ e]; exact h.mem k m
  | moveCtor i j =>
    obtain ⟨hi, hj⟩ := hp
    have hij : i ≠ j := fun e => hj (e ▸ hi)
    simp only [Sym.step] at hs
    split at hs
    · next l e =>
      cases hs
      exact inv_pass h hij (by rw [hi]; simp) e
    · next hh hne e =>
      cases hs
      have h1 : Inv { s with vars := upd s.vars i (some hh) } := inv_idle h (by rw [hi]; simp) (by intro l hc; cases hc; exact hne l rfl)
      exact inv_idle (s := { s with vars := upd s.vars i (some hh) }) h1
        (by intro l; simp only [upd_ne _ _ (Ne.symm hij)]; rw [e]; intro hc; cases hc; exact hne l rfl) (by simp)
    · cases hs
  | moveAssign i j =>
    obtain ⟨hij, hj, hi⟩ := hp
    have hi' : ∀ l, s.vars i ≠ some (.cell (some l)) := fun l => by rcases hi with e | e <;> rw [e] <;> simp
    simp only [Sym.step] at hs
    split at hs
    · next l e =>
      cases hs
      exact inv_pass h hij hi' e
    · next hh hne e =>
      cases hs
      have h1 : Inv { s with vars := upd s.vars i (some hh) } := inv_idle h hi' (by intro l hc; cases hc; exact hne l rfl)
      exact inv_idle (s := { s with vars := upd s.vars i (some hh) }) h1
        (by intro l; simp only [upd_ne _ _ (Ne.symm hij)]; rw [e]; intro hc; cases hc; exact hne l rfl) (by simp)
    · cases hs
  | drop i =>
    obtain ⟨hi, hn⟩ := hp
    cases e : s.vars i with
    | none => exact absurd e hi
    | some hh =>
      cases hh with
      | null => exact absurd e hn
      | cell c =>
        cases c with
        | none =>
          simp only [Sym.step, e, Lib.handleRef, Res.ok.injEq] at hs; subst hs
          exact inv_idle h (by rw [e]; simp) (by simp)
        | some l =>
          simp only [Sym.step, e, Lib.handleRef, Res.ok.injEq] at hs; subst hs
          have hiw : i ∈ s.who l := (h.mem i l).2 e
          refine ⟨fun m => ?_, fun m => ?_, fun k m => ?_⟩
          · by_cases em : m = l
            · subst em; simp [h.len, List.length_erase_of_mem hiw]
            · simp only [upd_ne _ _ em]; exact h.len m
          · by_cases em : m = l
            · subst em; simp only [upd_self]; exact (h.nodup m).erase i
            · simp only [upd_ne _ _ em]; exact h.nodup m
          · by_cases ek : k = i
            · subst ek
              simp only [upd_self]
              by_cases em : m = l
              · subst em; simp [(h.nodup m).mem_erase_iff]
              · simp only [upd_ne _ _ em]
                rw [h.mem, e]
                constructor
                · intro h1; injection h1 with h1; injection h1 with h1; injection h1 with h1; exact absurd h1.symm em
                · intro h1; cases h1
            · simp only [upd_ne _ _ ek]
              by_cases em : m = l
              · subst em; simp [(h.nodup m).mem_erase_iff, ek, h.mem]
              · simp only [upd_ne _ _ em]; exact h.mem k m

theorem reach_inv {s : Sym.St} (h : Own.Reach Sym.step Sym.pre Sym.start s) : Inv s :=
  h.inv inv_start fun _ _ _ => inv_step

/-- One reference to `l` is held by nobody: it is still booked on `i`. -/
def Extra (i l : Nat) (s : Sym.St) : Prop :=
  s.refs l = (s.who l).length ∧ ∀ k, (s.who l).count k = (if s.vars k = some (.cell (some l)) then 1 else 0) + if k = i then 1 else 0

theorem extra_pass {i l : Nat} {s : Sym.St} (h : Extra i l s) {a b m : Nat} (hab : a ≠ b) (ha : ∀ l, s.vars a ≠ some (.cell (some l)))
    (hb : s.vars b = some (.cell (some m))) : Extra i l ⟨upd (upd s.vars a (some (.cell (some m)))) b (some .null), s.refs, upd s.who m (a :: (s.who m).erase b)⟩ := by
  obtain ⟨h1, h2⟩ := h
  by_cases em : m = l
  · subst em
    have hbw : b ∈ s.who m := List.count_pos_iff.1 (by rw [h2, if_pos hb]; omega)
    refine ⟨?_, fun k => ?_⟩
    · have := List.length_pos_of_mem hbw
      simp only [upd_self, List.length_cons, List.length_erase_of_mem hbw]; omega
    · have hk := h2 k
      simp only [upd_self, List.count_cons, List.count_erase, hk]
      by_cases e1 : k = b
      · subst e1
        have : ¬ a = k := hab
        simp [hb, this]
      · simp only [upd_ne _ _ e1]
        by_cases e2 : k = a
        · subst e2
          have : ¬ b = k := fun e => e1 e.symm
          simp [ha, this]; omega
        · simp only [upd_ne _ _ e2]
          have e1' : ¬ b = k := fun e => e1 e.symm
          have e2' : ¬ a = k := fun e => e2 e.symm
          simp [e1', e2']
  · refine ⟨by simpa only [upd_ne _ _ (fun e => em e.symm : l ≠ m)] using h1, fun k => ?_⟩
    have hk := h2 k
    simp only [upd_ne _ _ (fun e => em e.symm : l ≠ m), hk]
    by_cases e1 : k = b
    · subst e1; simp [hb, em]
    · simp only [upd_ne _ _ e1]
      by_cases e2 : k = a
      · subst e2; simp [ha, em]
      · simp only [upd_ne _ _ e2]

theorem extra_idle {i l : Nat} {s : Sym.St} (h : Extra i l s) {a : Nat} {x : Option Lib.Handle} (ha : ∀ l, s.vars a ≠ some (.cell (some l)))
    (hx : ∀ l, x ≠ some (.cell (some l))) : Extra i l { s with vars := upd s.vars a x } := by
  refine ⟨h.1, fun k => ?_⟩
  have hk := h.2 k
  simp only [hk]
  by_cases e : k = a
  · subst e; simp [ha, hx]
  · simp only [upd_ne _ _ e]

theorem extra_step {i l : Nat} {s s' : Sym.St} {o : Sym.Op} (h : Extra i l s) (hp : Sym.pre s o) (hs : Sym.step s o = .ok s') : Extra i l s' := by
  have moved : ∀ {a b : Nat} {t : Sym.St}, a ≠ b → (∀ l, s.vars a ≠ some (.cell (some l))) →
      (match s.vars b with
        | some (.cell (some l)) => Res.ok ⟨upd (upd s.vars a (some (.cell (some l)))) b (some .null), s.refs, upd s.who l (a :: (s.who l).erase b)⟩
        | some h => .ok { s with vars := upd (upd s.vars a (some h)) b (some .null) }
        | none => .ub) = Res.ok t → Extra i l t := by
    intro a b t hab ha hs
    split at hs
    · next m e => cases hs; exact extra_pass h hab ha e
    · next hh hne e =>
      cases hs
      have h1 : Extra i l { s with vars := upd s.vars a (some hh) } := extra_idle h ha (by intro l hc; cases hc; exact hne l rfl)
      exact extra_idle (s := { s with vars := upd s.vars a (some hh) }) h1
        (by intro l; simp only [upd_ne _ _ (Ne.symm hab)]; rw [e]; intro hc; cases hc; exact hne l rfl) (by simp)
    · cases hs
  cases o with
  | create a =>
    simp only [Sym.step, Res.ok.injEq] at hs; subst hs
    exact extra_idle h (by rw [show s.vars a = none from hp]; simp) (by simp)
  | load a f =>
    have ha : s.vars a = none := hp
    cases f with
    | none =>
      simp only [Sym.step, Res.ok.injEq] at hs; subst hs
      exact extra_idle h (by rw [ha]; simp) (by simp)
    | some m =>
      simp only [Sym.step, Res.ok.injEq] at hs; subst hs
      obtain ⟨h1, h2⟩ := h
      by_cases em : m = l
      · subst em
        refine ⟨by simp [h1], fun k => ?_⟩
        have hk := h2 k
        simp only [upd_self, List.count_cons, hk]
        by_cases e : k = a
        · subst e; simp [ha]; omega
        · have e' : ¬ a = k := fun x => e x.symm
          simp only [upd_ne _ _ e]; simp [e']
      · refine ⟨by simpa only [upd_ne _ _ (fun e => em e.symm : l ≠ m)] using h1, fun k => ?_⟩
        have hk := h2 k
        simp only [upd_ne _ _ (fun e => em e.symm : l ≠ m), hk]
        by_cases e : k = a
        · subst e; simp [ha, em]
        · simp only [upd_ne _ _ e]
  | moveCtor a b =>
    obtain ⟨ha, hb⟩ := hp
    have hab : a ≠ b := fun e => hb (e ▸ ha)
    exact moved hab (by rw [ha]; simp) hs
  | moveAssign a b =>
    obtain ⟨hab, _, ha⟩ := hp
    exact moved hab (fun l => by rcases ha with e | e <;> rw [e] <;> simp) hs
  | drop a =>
    obtain ⟨ha, hn⟩ := hp
    cases e : s.vars a with
    | none => exact absurd e ha
    | some hh =>
      cases hh with
      | null => exact absurd e hn
      | cell c =>
        cases c with
        | none =>
          simp only [Sym.step, e, Lib.handleRef, Res.ok.injEq] at hs; subst hs
          exact extra_idle h (by rw [e]; simp) (by simp)
        | some m =>
          simp only [Sym.step, e, Lib.handleRef, Res.ok.injEq] at hs; subst hs
          obtain ⟨h1, h2⟩ := h
          by_cases em : m = l
          · subst em
            have haw : a ∈ s.who m := List.count_pos_iff.1 (by rw [h2, if_pos e]; omega)
            refine ⟨by simp [h1, List.length_erase_of_mem haw], fun k => ?_⟩
            have hk := h2 k
            simp only [upd_self, List.count_erase, hk]
            by_cases e1 : k = a
            · subst e1; simp [e]
            · have e' : ¬ a = k := fun x => e1 x.symm
              simp only [upd_ne _ _ e1]; simp [e']
          · refine ⟨by simpa only [upd_ne _ _ (fun e => em e.symm : l ≠ m)] using h1, fun k => ?_⟩
            have hk := h2 k
            simp only [upd_ne _ _ (fun e => em e.symm : l ≠ m), hk]
            by_cases e1 : k = a
            · subst e1; simp [e, em]
            · simp only [upd_ne _ _ e1]

end SymLemmas
open SymLemmas

/-- **C161, where symbols come from.** An object that says it holds a library finds exactly that library's symbols, and the library is in memory: what was found is
valid. -/
theorem C161_loaded_partial {s : Sym.St} (hr : Own.Reach Sym.step Sym.pre Sym.start s) (w : Sym.World) {i : Nat} {h : Lib.Handle} (hi : s.vars i = some h)
    (hl : Sym.loaded h = .ok true) : ∃ l, Sym.mapped s l ∧ ∀ name, Sym.find w h name = .ok (w.library l name) := by
  cases h with
  | null => cases hl
  | cell c =>
    cases c with
    | none => cases hl
    | some l =>
      refine ⟨l, ?_, fun _ => rfl⟩
      have hi' := reach_inv hr
      unfold Sym.mapped
      rw [hi'.len]
      exact List.length_pos_of_mem ((hi'.mem i l).2 hi)

/-- **C161, how long they stay.** A library is in memory exactly while some object holds it, whichever object opened it first and however they were moved. -/
theorem C161_mapped_iff {s : Sym.St} (hr : Own.Reach Sym.step Sym.pre Sym.start s) (l : Nat) :
    Sym.mapped s l ↔ ∃ i, s.vars i = some (.cell (some l)) := by
  have hi := reach_inv hr
  unfold Sym.mapped
  rw [hi.len, List.length_pos_iff_exists_mem]
  exact exists_congr fun i => hi.mem i l

/-- **C161 fails: not loaded.** An object that says it holds no library — default constructed, or because the library was not found — finds every symbol of the
program itself, instead of none. -/
theorem C161_unloaded_violated (s : Sym.St) (w : Sym.World) {i : Nat} {o : Sym.Op} (ho : o = .create i ∨ o = .load i none) {name a : Nat} (ha : w.program name = some a) :
    ∃ s' h, Sym.step s o = .ok s' ∧ s'.vars i = some h ∧ Sym.loaded h = .ok false ∧ Sym.find w h name = .ok (some a) := by
  rcases ho with rfl | rfl
  · exact ⟨_, .cell none, rfl, by simp, rfl, by simp [Sym.find, Lib.handleRef, ha]⟩
  · exact ⟨_, .cell none, rfl, by simp, rfl, by simp [Sym.find, Lib.handleRef, ha]⟩

/-- **C161 fails: assigned over.** Assigning to an object that holds a library keeps it in memory for ever: no later execution unmaps it. -/
theorem C161_assign_violated {s s' : Sym.St} (hr : Own.Reach Sym.step Sym.pre Sym.start s) {i j l m : Nat} (hij : i ≠ j) (hi : s.vars i = some (.cell (some l)))
    (hj : s.vars j = some (.cell (some m))) (hm : m ≠ l) (hs : Sym.step s (.moveAssign i j) = .ok s') {t : Sym.St} (ht : Own.Reach Sym.step Sym.pre s' t) :
    Sym.mapped t l := by
  have hinv := reach_inv hr
  have h0 : Extra i l s' := by
    simp only [Sym.step, hj, Res.ok.injEq] at hs
    subst hs
    refine ⟨by simp only [upd_ne _ _ (Ne.symm hm)]; exact hinv.len l, fun k => ?_⟩
    have hk := hinv.mem k l
    simp only [upd_ne _ _ (Ne.symm hm), (hinv.nodup l).count, hk]
    by_cases e1 : k = j
    · subst e1
      have : ¬ k = i := fun e => hij e.symm
      simp [hj, hm, this]
    · simp only [upd_ne _ _ e1]
      by_cases e2 : k = i
      · subst e2; simp [hi, hm]
      · simp only [upd_ne _ _ e2]; simp [e2]
  have := ht.inv (P := Extra i l) h0 fun _ _ _ => extra_step
  have h1 := this.2 i
  simp only [if_true] at h1
  unfold Sym.mapped
  rw [this.1]
  exact List.length_pos_of_mem (List.count_pos_iff.1 (by omega : 0 < (t.who l).count i))

/-- Two objects for two libraries: the first is assigned the second. -/
example : ∃ s, Own.Reach Sym.step Sym.pre Sym.start s ∧ (s.vars 0, s.vars 1) = (some (.cell (some 7)), some (.cell (some 8))) :=
  Own.Reach.witness (step := Sym.step) [.load 0 (some 7), .load 1 (some 8)] (fun s => (s.vars 0, s.vars 1)) _ (by decide)

/-- Opened twice, moved once. -/
example : ∃ s, Own.Reach Sym.step Sym.pre Sym.start s ∧ (s.vars 0, s.vars 1, s.vars 2, s.refs 7) = (some .null, some (.cell (some 7)), some (.cell (some 7)), 2) :=
  Own.Reach.witness (step := Sym.step) [.load 0 (some 7), .load 1 (some 7), .moveCtor 2 0] (fun s => (s.vars 0, s.vars 1, s.vars 2, s.refs 7)) _ (by decide)

/-- Given to an empty object by assignment, then found and released there. -/
example : ∃ s, Own.Reach Sym.step Sym.pre Sym.start s ∧ (s.vars 0, s.vars 1, s.refs 7) = (some .null, none, 0) :=
  Own.Reach.witness (step := Sym.step) [.load 0 (some 7), .create 1, .moveAssign 1 0, .drop 1] (fun s => (s.vars 0, s.vars 1, s.refs 7)) _ (by decide)

namespace Flame
open Own Own.Sym
example := C161_loaded_partial (.visit ([.load 0 (some 7), .load 1 (some 8)] : List Sym.Op) (by decide +kernel)) ⟨fun _ => none, fun l n => some (l + n)⟩ (i := 1)
  rfl rfl
example := C161_mapped_iff (.visit ([.load 0 (some 7), .load 1 (some 8)] : List Sym.Op) (by decide +kernel)) 8
example := C161_unloaded_violated Sym.start ⟨fun _ => some 3, fun l n => some (l + n)⟩ (i := 2) (o := .load 2 none) (.inr rfl) (name := 4) (a := 3) rfl
end Flame

end Flame
