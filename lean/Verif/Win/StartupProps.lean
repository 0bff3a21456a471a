import Verif.Win.Startup

/-!
# C160: Winsock is started before use and ended once after
-/

namespace Flame
open Own WsaLib

namespace WsaLibLemmas

/-- No call under way. -/
def atRest (p : Phase) : Prop := p = .idle ∨ ∃ b, p = .done b

structure Inv (s : WsaLib.St) : Prop where
  up : s.inited = true → 1 ≤ s.startups
  setting : ∀ i, s.phase i = .setting → 1 ≤ s.startups
  done : ∀ i, s.phase i = .done true → s.inited = true
  clean : s.cleanups = if s.ended then (if s.inited then 1 else 0) else 0

theorem inv_step {s s' : WsaLib.St} {o : WsaLib.Op} (h : Inv s) (hp : WsaLib.pre s o) (hs : WsaLib.step s o = .ok s') : Inv s' := by
  obtain ⟨h1, h2, h3, h4⟩ := h
  cases o with
  | check i =>
    simp only [WsaLib.step, Res.ok.injEq] at hs; subst hs
    refine ⟨h1, fun j hj => ?_, fun j hj => ?_, h4⟩
    · by_cases e : j = i
      · subst e; simp only [upd_self] at hj; split at hj <;> cases hj
      · exact h2 j (by simpa [upd_ne _ _ e] using hj)
    · by_cases e : j = i
      · subst e; simp only [upd_self] at hj; split at hj <;> cases hj
      · exact h3 j (by simpa [upd_ne _ _ e] using hj)
  | startup i ok =>
    simp only [WsaLib.step] at hs
    split at hs <;> simp only [Res.ok.injEq] at hs <;> subst hs
    · refine ⟨fun _ => by simp, fun _ _ => by simp, fun j hj => ?_, h4⟩
      by_cases e : j = i
      · subst e; simp at hj
      · exact h3 j (by simpa [upd_ne _ _ e] using hj)
    · refine ⟨h1, fun j hj => ?_, fun j hj => ?_, h4⟩
      · by_cases e : j = i
        · subst e; simp at hj
        · exact h2 j (by simpa [upd_ne _ _ e] using hj)
      · by_cases e : j = i
        · subst e; simp at hj
        · exact h3 j (by simpa [upd_ne _ _ e] using hj)
  | set i =>
    obtain ⟨he, hi⟩ := hp
    simp only [WsaLib.step, Res.ok.injEq] at hs; subst hs
    refine ⟨fun _ => h2 i hi, fun j hj => h2 i hi, fun _ _ => rfl, ?_⟩
    simpa [he] using h4
  | read i =>
    simp only [WsaLib.step, Res.ok.injEq] at hs; subst hs
    refine ⟨h1, fun j hj => ?_, fun j hj => ?_, h4⟩
    · by_cases e : j = i
      · subst e; simp at hj
      · exact h2 j (by simpa [upd_ne _ _ e] using hj)
    · by_cases e : j = i
      · subst e; simpa using hj
      · exact h3 j (by simpa [upd_ne _ _ e] using hj)
  | exit =>
    obtain ⟨he, _⟩ := hp
    simp only [WsaLib.step, Res.ok.injEq] at hs; subst hs
    refine ⟨h1, h2, h3, ?_⟩
    simp only [he, Bool.false_eq_true, if_false] at h4
    simp only [if_true]
    rw [h4]

theorem reach_inv {s : WsaLib.St} (h : Own.Reach WsaLib.step WsaLib.pre WsaLib.start s) : Inv s :=
  Own.Reach.inv (P := Inv) ⟨by simp [WsaLib.start], by simp [WsaLib.start], by simp [WsaLib.start], rfl⟩
    (fun _ _ _ hi hp hs => inv_step hi hp hs) h

end WsaLibLemmas
open WsaLibLemmas

/-- **C160, started.** Whenever some call of `winsockInit` has answered true and the process has not ended, Winsock works; it is never ended more often than
started. -/
theorem C160_started {s : WsaLib.St} (h : Own.Reach WsaLib.step WsaLib.pre WsaLib.start s) :
    (∀ i, s.phase i = .done true → s.ended = false → s.cleanups < s.startups) ∧ s.cleanups ≤ s.startups ∧ s.cleanups ≤ 1 := by
  have hi := reach_inv h
  have hc := hi.clean
  refine ⟨fun i hd he => ?_, ?_, ?_⟩
  · rw [hc, he]
    exact hi.up (hi.done i hd)
  · rw [hc]
    split
    · split
      · next e => exact hi.up e
      · omega
    · omega
  · rw [hc]
    split
    · split <;> omega
    · omega

/-- **C160, paired, for calls that do not overlap.** Winsock is started at most once, and after the end as often ended as started. -/
theorem C160_serial_partial {s : WsaLib.St} (h : Own.Reach WsaLib.step WsaLib.serial WsaLib.start s) :
    s.startups ≤ 1 ∧ (s.ended = true → s.cleanups = s.startups) := by
  have H : Inv s ∧ (∀ i j, ¬ atRest (s.phase i) → ¬ atRest (s.phase j) → i = j) ∧ (s.ended = true → ∀ i, atRest (s.phase i)) ∧
      (∀ i, s.phase i = .starting → s.startups = 0 ∧ s.inited = false) ∧
      (∀ i, s.phase i = .setting → s.startups = 1 ∧ s.inited = false) ∧
      ((∀ i, s.phase i ≠ .setting) → s.startups = if s.inited then 1 else 0) := by
    refine Own.Reach.inv (P := fun s => Inv s ∧ (∀ i j, ¬ atRest (s.phase i) → ¬ atRest (s.phase j) → i = j) ∧ (s.ended = true → ∀ i, atRest (s.phase i)) ∧
      (∀ i, s.phase i = .starting → s.startups = 0 ∧ s.inited = false) ∧
      (∀ i, s.phase i = .setting → s.startups = 1 ∧ s.inited = false) ∧
      ((∀ i, s.phase i ≠ .setting) → s.startups = if s.inited then 1 else 0)) ?_ ?_ h
    · exact ⟨reach_inv .start, by simp [WsaLib.start, atRest], by simp [WsaLib.start], by simp [WsaLib.start], by simp [WsaLib.start], by simp [WsaLib.start]⟩
    · rintro s o s' ⟨hi, g1, g2, g3, g4, g5⟩ hp hs
      have hpre : WsaLib.pre s o := by
        cases o with
        | check i => exact hp.1
        | _ => exact hp
      refine ⟨inv_step hi hpre hs, ?_⟩
      cases o with
      | check i =>
        obtain ⟨⟨he, _⟩, hrest⟩ := hp
        have hset : ∀ j, s.phase j ≠ .setting := fun j e => by
          rcases hrest j with h | ⟨b, h⟩ <;> rw [h] at e <;> cases e
        have hst : ∀ j, s.phase j ≠ .starting := fun j e => by
          rcases hrest j with h | ⟨b, h⟩ <;> rw [h] at e <;> cases e
        simp only [WsaLib.step, Res.ok.injEq] at hs; subst hs
        refine ⟨fun a b ha hb => ?_, by simp [he], fun j hj => ?_, fun j hj => ?_, fun _ => by simpa using g5 hset⟩
        · have : ∀ a, ¬ atRest (upd s.phase i (if s.inited then .reading else .starting) a) → a = i := by
            intro a ha
            by_cases e : a = i
            · exact e
            · rw [upd_ne _ _ e] at ha; exact absurd (hrest a) ha
          rw [this a ha, this b hb]
        · by_cases e : j = i
          · subst e
            simp only [upd_self] at hj
            cases hin : s.inited with
            | true => simp [hin] at hj
            | false => have := g5 hset; simp [hin] at this; exact ⟨this, rfl⟩
          · exact absurd (by simpa [upd_ne _ _ e] using hj) (hst j)
        · by_cases e : j = i
          · subst e; simp only [upd_self] at hj; split at hj <;> cases hj
          · exact absurd (by simpa [upd_ne _ _ e] using hj) (hset j)
      | startup i ok =>
        obtain ⟨he, hi'⟩ := hp
        have hni : ¬ atRest (s.phase i) := by rw [hi']; rintro (h | ⟨b, h⟩) <;> cases h
        have hoth : ∀ j, j ≠ i → atRest (s.phase j) := fun j e => Classical.byContradiction fun h => e (g1 j i h hni)
        have hoth' : ∀ j, j ≠ i → s.phase j ≠ .setting ∧ s.phase j ≠ .starting := fun j e => by
          rcases hoth j e with h | ⟨b, h⟩ <;> rw [h] <;> exact ⟨Phase.noConfusion, Phase.noConfusion⟩
        obtain ⟨z1, z2⟩ := g3 i hi'
        have rest : ∀ (x : Phase) a, ¬ atRest (upd s.phase i x a) → a = i := by
          intro x a ha
          by_cases e : a = i
          · exact e
          · rw [upd_ne _ _ e] at ha; exact absurd (hoth a e) ha
        simp only [WsaLib.step] at hs
        split at hs <;> simp only [Res.ok.injEq] at hs <;> subst hs
        · refine ⟨fun a b ha hb => by rw [rest _ a ha, rest _ b hb], by simp [he], fun j hj => ?_, fun j hj => ⟨by simp [z1], z2⟩, fun hc => ?_⟩
          · by_cases e : j = i
            · subst e; simp at hj
            · exact absurd (by simpa [upd_ne _ _ e] using hj) (hoth' j e).2
          · exact absurd (by simp) (hc i)
        · refine ⟨fun a b ha hb => by rw [rest _ a ha, rest _ b hb], by simp [he], fun j hj => ?_, fun j hj => ?_, fun _ => by simp [z1, z2]⟩
          · by_cases e : j = i
            · subst e; simp at hj
            · exact absurd (by simpa [upd_ne _ _ e] using hj) (hoth' j e).2
          · by_cases e : j = i
            · subst e; simp at hj
            · exact absurd (by simpa [upd_ne _ _ e] using hj) (hoth' j e).1
      | set i =>
        obtain ⟨he, hi'⟩ := hp
        have hni : ¬ atRest (s.phase i) := by rw [hi']; rintro (h | ⟨b, h⟩) <;> cases h
        have hoth : ∀ j, j ≠ i → atRest (s.phase j) := fun j e => Classical.byContradiction fun h => e (g1 j i h hni)
        have hoth' : ∀ j, j ≠ i → s.phase j ≠ .setting ∧ s.phase j ≠ .starting := fun j e => by
          rcases hoth j e with h | ⟨b, h⟩ <;> rw [h] <;> exact ⟨Phase.noConfusion, Phase.noConfusion⟩
        obtain ⟨z1, z2⟩ := g4 i hi'
        have rest : ∀ a, ¬ atRest (upd s.phase i .reading a) → a = i := by
          intro a ha
          by_cases e : a = i
          · exact e
          · rw [upd_ne _ _ e] at ha; exact absurd (hoth a e) ha
        simp only [WsaLib.step, Res.ok.injEq] at hs; subst hs
        refine ⟨fun a b ha hb => by rw [rest a ha, rest b hb], by simp [he], fun j hj => ?_, fun j hj => ?_, fun _ => by simp [z1]⟩
        · by_cases e : j = i
          · subst e; simp at hj
          · exact absurd (by simpa [upd_ne _ _ e] using hj) (hoth' j e).2
        · by_cases e : j = i
          · subst e; simp at hj
          · exact absurd (by simpa [upd_ne _ _ e] using hj) (hoth' j e).1
      | read i =>
        obtain ⟨he, hi'⟩ := hp
        have hni : ¬ atRest (s.phase i) := by rw [hi']; rintro (h | ⟨b, h⟩) <;> cases h
        have hoth : ∀ j, atRest (upd s.phase i (.done s.inited) j) := fun j => by
          by_cases e : j = i
          · subst e; exact .inr ⟨s.inited, upd_self _ _ _⟩
          · rw [upd_ne _ _ e]; exact Classical.byContradiction fun h => e (g1 j i h hni)
        have hset : ∀ j, s.phase j ≠ .setting := fun j e => by
          by_cases e' : j = i
          · subst e'; rw [hi'] at e; cases e
          · have := hoth j; rw [upd_ne _ _ e', e] at this; rcases this with h | ⟨b, h⟩ <;> cases h
        simp only [WsaLib.step, Res.ok.injEq] at hs; subst hs
        refine ⟨fun a _ ha _ => absurd (hoth a) ha, by simp [he], fun j hj => ?_, fun j hj => ?_, fun _ => g5 hset⟩
        · have := hoth j; simp only at hj; rw [hj] at this; rcases this with h | ⟨b, h⟩ <;> cases h
        · have := hoth j; simp only at hj; rw [hj] at this; rcases this with h | ⟨b, h⟩ <;> cases h
      | exit =>
        obtain ⟨he, hr⟩ := hp
        simp only [WsaLib.step, Res.ok.injEq] at hs; subst hs
        exact ⟨g1, fun _ => hr, g3, g4, g5⟩
  obtain ⟨hi, _, g2, _, g4, g5⟩ := H
  have hle : s.startups ≤ 1 := by
    by_cases hc : ∀ i, s.phase i ≠ .setting
    · rw [g5 hc]; split <;> omega
    · obtain ⟨i, hi⟩ := Classical.not_forall.1 hc
      rw [(g4 i (Classical.not_not.1 hi)).1]; exact Nat.le_refl _
  refine ⟨hle, fun he => ?_⟩
  have hset : ∀ i, s.phase i ≠ .setting := fun i e => by
    rcases g2 he i with h | ⟨b, h⟩ <;> rw [h] at e <;> cases e
  rw [hi.clean, he, g5 hset]
  simp

namespace WsaLibLemmas

theorem reach_snoc {s s' : WsaLib.St} {o : WsaLib.Op} (h : Own.Reach WsaLib.step WsaLib.pre WsaLib.start s) (hp : WsaLib.pre s o)
    (hs : WsaLib.step s o = .ok s') : Own.Reach WsaLib.step WsaLib.pre WsaLib.start s' := .step h hp hs

/-- The first `n` threads are in `x`, the others idle. -/
def first (n : Nat) (x : Phase) : Nat → Phase := fun i => if i < n then x else .idle

theorem checked (n : Nat) : Own.Reach WsaLib.step WsaLib.pre WsaLib.start ⟨false, 0, 0, first n .starting, false⟩ := by
  induction n with
  | zero =>
    have : (⟨false, 0, 0, first 0 .starting, false⟩ : WsaLib.St) = WsaLib.start := by
      simp only [WsaLib.start, St.mk.injEq, true_and, and_true]; funext i; simp [first]
    rw [this]; exact .start
  | succ n ih =>
    refine reach_snoc ih (o := .check n) ⟨rfl, .inl (by simp [first])⟩ ?_
    simp only [WsaLib.step, Bool.false_eq_true, if_false, Res.ok.injEq, St.mk.injEq, true_and, and_true]
    funext i
    by_cases e : i = n
    · subst e; simp [first]
    · rw [upd_ne _ _ e]; simp only [first]
      by_cases h : i < n
      · rw [if_pos h, if_pos (by omega)]
      · rw [if_neg h, if_neg (by omega)]

/-- `m` of the `n` threads have started Winsock. -/
def mixed (n m : Nat) (x y : Phase) : Nat → Phase := fun i => if i < m then x else if i < n then y else .idle

theorem mixed_upd {n m : Nat} {x y : Phase} (h : m < n) : upd (mixed n m x y) m x = mixed n (m + 1) x y := by
  funext i
  by_cases e : i = m
  · subst e; simp [mixed]
  · rw [upd_ne _ _ e]; simp only [mixed]
    by_cases h : i < m
    · rw [if_pos h, if_pos (by omega)]
    · rw [if_neg h, if_neg (show ¬ i < m + 1 by omega)]

theorem mixed_zero (n : Nat) (x y : Phase) : mixed n 0 x y = first n y := by
  funext i; simp [mixed, first]

theorem mixed_all (n : Nat) (x y : Phase) : mixed n n x y = first n x := by
  funext i; simp only [mixed, first]; split <;> rfl

theorem raced (n m : Nat) (h : m ≤ n) : Own.Reach WsaLib.step WsaLib.pre WsaLib.start ⟨false, m, 0, mixed n m .setting .starting, false⟩ := by
  induction m with
  | zero => rw [mixed_zero]; exact checked n
  | succ m ih =>
    refine reach_snoc (ih (by omega)) (o := .startup m true) ⟨rfl, by simp [mixed]; omega⟩ ?_
    simp only [WsaLib.step, if_true, mixed_upd (show m < n by omega)]

theorem setted (n m : Nat) (h : m < n) : Own.Reach WsaLib.step WsaLib.pre WsaLib.start ⟨true, n, 0, mixed n (m + 1) .reading .setting, false⟩ := by
  induction m with
  | zero =>
    refine reach_snoc (raced n n (Nat.le_refl _)) (o := .set 0) ⟨rfl, by simp [mixed]; omega⟩ ?_
    simp only [WsaLib.step, mixed_all]
    rw [← mixed_zero n .reading .setting, mixed_upd h]
  | succ m ih =>
    refine reach_snoc (ih (by omega)) (o := .set (m + 1)) ⟨rfl, by simp [mixed]; omega⟩ ?_
    simp only [WsaLib.step, mixed_upd h]

theorem readed (n m : Nat) (hn : 0 < n) (h : m ≤ n) :
    Own.Reach WsaLib.step WsaLib.pre WsaLib.start ⟨true, n, 0, mixed n m (.done true) .reading, false⟩ := by
  induction m with
  | zero =>
    have := setted n (n - 1) (by omega)
    rw [show n - 1 + 1 = n by omega, mixed_all] at this
    rw [mixed_zero]; exact this
  | succ m ih =>
    refine reach_snoc (ih (by omega)) (o := .read m) ⟨rfl, by simp [mixed]; omega⟩ ?_
    simp only [WsaLib.step, mixed_upd (show m < n by omega)]

end WsaLibLemmas

/-- **C160 fails: first use by several threads.** `n` threads may all find Winsock not started; each starts it, and the end of the process ends it once: `n - 1` starts
are never undone. -/
theorem C160_race_violated {n : Nat} (hn : 0 < n) : ∃ s, Own.Reach WsaLib.step WsaLib.pre WsaLib.start s ∧ (∀ i, i < n → s.phase i = .done true) ∧
    s.ended = true ∧ s.startups = n ∧ s.cleanups = 1 := by
  refine ⟨⟨true, n, 1, mixed n n (.done true) .reading, true⟩, ?_, fun i hi => by simp [mixed, hi], rfl, rfl, rfl⟩
  refine reach_snoc (readed n n hn (Nat.le_refl _)) (o := .exit) ⟨rfl, fun i => ?_⟩ (by simp [WsaLib.step])
  simp only [mixed]
  split
  · exact .inr ⟨_, rfl⟩
  · exact .inl rfl

/-! ## The end of the process -/

namespace WsaLibLemmas

/-- Objects constructed before the library's. -/
def below : List Obj → List Obj
  | [] => []
  | .winsock :: os => os
  | .holder _ :: os => below os

theorem ending_false (sock : Nat → Bool) (os : List Obj) : ending sock false os = (ending sock true os).map fun x => (x.1, false) := by
  induction os with
  | nil => rfl
  | cons o os ih =>
    cases o with
    | winsock =>
      simp only [ending]
      have : ∀ os, (ending sock false os).map (fun x => (x.1, false)) = ending sock false os := by
        intro os
        induction os with
        | nil => rfl
        | cons o os ih =>
          cases o with
          | winsock => simpa [ending] using ih
          | holder k => simp only [ending]; split <;> simp [ih]
      rw [this]
    | holder k => simp only [ending]; split <;> simp [ih]

theorem ending_early {sock : Nat → Bool} {k : Nat} : ∀ {os : List Obj}, (k, false) ∈ ending sock true os ↔ .holder k ∈ below os ∧ sock k = true
  | [] => by simp [ending, below]
  | .winsock :: os => by
    simp only [ending, below]
    induction os with
    | nil => simp [ending]
    | cons o os ih =>
      cases o with
      | winsock => simp [ending, ih]
      | holder j =>
        simp only [ending]
        split
        · next h => simp only [List.mem_cons, Prod.mk.injEq, and_true, ih, Obj.holder.injEq]
                    constructor
                    · rintro (rfl | h') 
                      · exact ⟨.inl rfl, h⟩
                      · exact ⟨.inr h'.1, h'.2⟩
                    · rintro ⟨rfl | h1, h2⟩
                      · exact .inl rfl
                      · exact .inr ⟨h1, h2⟩
        · next h => simp only [ih, List.mem_cons, Obj.holder.injEq]
                    constructor
                    · rintro ⟨h1, h2⟩; exact ⟨.inr h1, h2⟩
                    · rintro ⟨rfl | h1, h2⟩
                      · exact absurd h2 h
                      · exact ⟨h1, h2⟩
  | .holder j :: os => by
    simp only [ending, below]
    split
    · simp [ending_early (os := os)]
    · exact ending_early (os := os)

theorem below_need_mem {os : List Obj} (h : Obj.winsock ∈ os) : below (need os) = below os := by simp [need, h]

theorem below_need_new {os : List Obj} (h : Obj.winsock ∉ os) : below (need os) = os := by simp [need, h, below]

theorem winsock_need (os : List Obj) : Obj.winsock ∈ need os := by
  unfold need; split
  · assumption
  · simp

theorem prun_snoc (os : List POp) (o : POp) : prun (os ++ [o]) = pstep (prun os) o := by simp [prun]

end WsaLibLemmas

/-- **C160, the end, exactly.** A socket still held at the end is closed while Winsock works exactly if its holder was constructed after the library's object. -/
theorem C160_end_exact (sock : Nat → Bool) (os : List Obj) (k : Nat) :
    (k, false) ∈ ending sock true os ↔ .holder k ∈ below os ∧ sock k = true := ending_early

/-- **C160, the end, part.** If every object makes its socket in its constructor, all sockets still held at the end are closed while Winsock works. -/
theorem C160_end_partial (os : List POp) (hd : ∀ k, .fill k ∉ os) (hk : (os.filterMap fun | .construct k _ => some k | _ => none).Nodup) :
    ∀ x ∈ ending (prun os).sock true (prun os).objs, x.2 = true := by
  have main : ∀ ps qs : List POp, os = ps ++ qs →
      (∀ k, .holder k ∈ (prun ps).objs → .construct k true ∈ ps ∨ .construct k false ∈ ps) ∧
      (∀ k, .holder k ∈ below (prun ps).objs → (prun ps).sock k = false) ∧ (Obj.winsock ∉ (prun ps).objs → ∀ k, .holder k ∈ (prun ps).objs → (prun ps).sock k = false) := by
    intro ps
    induction h : ps.length generalizing ps with
    | zero =>
      intro qs _
      have : ps = [] := List.eq_nil_of_length_eq_zero h
      subst this
      simp [prun, below]
    | succ n ih =>
      intro qs hq
      obtain ⟨ps', o, rfl⟩ : ∃ ps' o, ps = ps' ++ [o] := by
        rcases List.eq_nil_or_concat ps with rfl | ⟨a, b, rfl⟩
        · cases h
        · exact ⟨a, b, by simp⟩
      obtain ⟨i0, i1, i2⟩ := ih ps' (by simpa using h) (o :: qs) (by simp [hq])
      rw [prun_snoc]
      cases o with
      | fill k => exact absurd (by simp [hq]) (hd k)
      | close k =>
        simp only [pstep]
        have aux : ∀ j, (prun ps').sock j = false → upd (prun ps').sock k false j = false := fun j hj => by
          by_cases e : j = k
          · subst e; simp
          · rw [upd_ne _ _ e]; exact hj
        refine ⟨fun j hj => (i0 j hj).imp (by simp) (by simp), fun j hj => aux j (i1 j hj), fun hw j hj => aux j (i2 hw j hj)⟩
      | construct k b =>
        have hnew : .holder k ∉ (prun ps').objs := fun hm => by
          have hc := i0 k hm
          rw [hq] at hk
          simp only [List.filterMap_append, List.append_assoc, List.filterMap_cons, List.filterMap_nil] at hk
          have hmem : k ∈ ps'.filterMap (fun | .construct k _ => some k | _ => none) := by
            rw [List.mem_filterMap]
            rcases hc with h | h
            · exact ⟨_, h, rfl⟩
            · exact ⟨_, h, rfl⟩
          have := (List.nodup_append.1 hk).2.2 k hmem k (by simp)
          exact this rfl
        have aux : ∀ j, .holder j ∈ (prun ps').objs → (prun ps').sock j = false → upd (prun ps').sock k b j = false := fun j hm hj => by
          have e : j ≠ k := fun e => hnew (e ▸ hm)
          rw [upd_ne _ _ e]; exact hj
        have sub : ∀ {j} {l : List Obj}, .holder j ∈ below l → .holder j ∈ l := by
          intro j l
          induction l with
          | nil => exact id
          | cons o l ih =>
            cases o with
            | winsock => exact fun h => List.mem_cons_of_mem _ h
            | holder i => exact fun h => List.mem_cons_of_mem _ (ih h)
        have inneed : ∀ {j} {l : List Obj}, .holder j ∈ need l → .holder j ∈ l := by
          intro j l h
          unfold need at h; split at h
          · exact h
          · simpa using h
        simp only [pstep]
        cases b with
        | false =>
          refine ⟨fun j hj => ?_, fun j hj => ?_, fun hw j hj => ?_⟩
          · rcases List.mem_cons.1 hj with h | h
            · cases h; simp
            · exact (i0 j h).imp (by simp) (by simp_all)
          · simp only [below, Bool.false_eq_true, if_false] at hj
            exact aux j (sub hj) (i1 j hj)
          · simp only [Bool.false_eq_true, if_false, List.mem_cons, Obj.holder.injEq] at hj hw
            rcases hj with rfl | hj
            · simp
            · exact aux j hj (i2 (fun h => hw (.inr h)) j hj)
        | true =>
          refine ⟨fun j hj => ?_, fun j hj => ?_, fun hw => ?_⟩
          · rcases List.mem_cons.1 hj with h | h
            · cases h; simp
            · exact (i0 j (inneed h)).imp (by simp_all) (by simp_all)
          · simp only [below, if_true] at hj
            by_cases hw : Obj.winsock ∈ (prun ps').objs
            · rw [below_need_mem hw] at hj
              exact aux j (sub hj) (i1 j hj)
            · rw [below_need_new hw] at hj
              exact aux j hj (i2 hw j hj)
          · exact absurd (List.mem_cons_of_mem _ (winsock_need _)) hw
  obtain ⟨_, h1, _⟩ := main os [] (by simp)
  intro x hx
  obtain ⟨k, b⟩ := x
  cases b with
  | true => rfl
  | false =>
    obtain ⟨h2, h3⟩ := ending_early.1 hx
    rw [h1 k h2] at h3
    cases h3

/-- **C160 fails: late sockets.** An object constructed before the first socket of the process was made, and given one later, closes it after Winsock was ended,
whatever the other objects do afterwards. -/
theorem C160_end_violated (k : Nat) (rest : List POp) (hr : ∀ o ∈ rest, ∃ j, j ≠ k ∧ (o = .construct j true ∨ o = .construct j false ∨ o = .fill j ∨ o = .close j)) :
    (k, false) ∈ ending (prun (.construct k false :: .fill k :: rest)).sock true (prun (.construct k false :: .fill k :: rest)).objs := by
  rw [ending_early]
  have : ∀ (rest : List POp) (p : Prog), (∀ o ∈ rest, ∃ j, j ≠ k ∧ (o = .construct j true ∨ o = .construct j false ∨ o = .fill j ∨ o = .close j)) →
      Obj.winsock ∈ p.objs → .holder k ∈ below p.objs → p.sock k = true →
      .holder k ∈ below (rest.foldl pstep p).objs ∧ (rest.foldl pstep p).sock k = true := by
    intro rest
    induction rest with
    | nil => intro p _ _ h1 h2; exact ⟨h1, h2⟩
    | cons o rest ih =>
      intro p hr hw h1 h2
      obtain ⟨j, hj, ho⟩ := hr o (by simp)
      have hn : need p.objs = p.objs := by simp [need, hw]
      rw [List.foldl_cons]
      refine ih _ (fun o ho => hr o (by simp [ho])) ?_ ?_ ?_
      · rcases ho with rfl | rfl | rfl | rfl <;> simp [pstep, hn, hw]
      · rcases ho with rfl | rfl | rfl | rfl <;> simpa [pstep, hn, below] using h1
      · rcases ho with rfl | rfl | rfl | rfl <;> simp [pstep, upd_ne _ _ (Ne.symm hj), h2]
  refine this rest _ hr ?_ ?_ ?_ <;> simp [pstep, need, below]

/-! ## Concrete cases -/

example : (ending (prun [.construct 0 false, .construct 1 true, .fill 0, .construct 2 true]).sock true
    (prun [.construct 0 false, .construct 1 true, .fill 0, .construct 2 true]).objs) = [(2, true), (1, true), (0, false)] := by decide

/-- One call, then the end. -/
example : ∃ s, Own.Reach WsaLib.step WsaLib.serial WsaLib.start s ∧ s.ended = true ∧ s.startups = 1 ∧ s.phase 0 = .done true := by
  have h1 : Own.Reach WsaLib.step WsaLib.serial WsaLib.start _ := .step .start (o := .check 0) ⟨⟨rfl, .inl rfl⟩, fun _ => .inl rfl⟩ rfl
  have h2 : Own.Reach WsaLib.step WsaLib.serial WsaLib.start _ := .step h1 (o := .startup 0 true) ⟨rfl, rfl⟩ rfl
  have h3 : Own.Reach WsaLib.step WsaLib.serial WsaLib.start _ := .step h2 (o := .set 0) ⟨rfl, rfl⟩ rfl
  have h4 : Own.Reach WsaLib.step WsaLib.serial WsaLib.start _ := .step h3 (o := .read 0) ⟨rfl, rfl⟩ rfl
  have h5 : Own.Reach WsaLib.step WsaLib.serial WsaLib.start _ := .step h4 (o := .exit) ⟨rfl, fun i => by
    by_cases e : i = 0
    · subst e; exact .inr ⟨true, rfl⟩
    · left; simp only [upd_ne _ _ e]; rfl⟩ rfl
  exact ⟨_, h5, rfl, rfl, rfl⟩

/-- A thread asks again: Winsock is not started a second time. -/
example : ∃ s, Own.Reach WsaLib.step WsaLib.pre WsaLib.start s ∧ s.startups = 1 ∧ s.phase 0 = .reading := by
  have h1 : Own.Reach WsaLib.step WsaLib.pre WsaLib.start _ := .step .start (o := .check 0) ⟨rfl, .inl rfl⟩ rfl
  have h2 : Own.Reach WsaLib.step WsaLib.pre WsaLib.start _ := .step h1 (o := .startup 0 true) ⟨rfl, rfl⟩ rfl
  have h3 : Own.Reach WsaLib.step WsaLib.pre WsaLib.start _ := .step h2 (o := .set 0) ⟨rfl, rfl⟩ rfl
  have h4 : Own.Reach WsaLib.step WsaLib.pre WsaLib.start _ := .step h3 (o := .read 0) ⟨rfl, rfl⟩ rfl
  have h5 : Own.Reach WsaLib.step WsaLib.pre WsaLib.start _ := .step h4 (o := .check 0) ⟨rfl, .inr ⟨true, rfl⟩⟩ rfl
  exact ⟨_, h5, rfl, rfl⟩

namespace Flame
open Own WsaLib
example := C160_serial_partial (s := _)
 ( .step (.step .start (o := .check 0) ⟨⟨rfl, .inl rfl⟩, fun _ => .inl rfl⟩ rfl) (o := .startup 0 true) ⟨rfl, rfl⟩ rfl)
example := C160_started (s := _)
 ( .step (.step (.step .start (o := .check 0) ⟨rfl, .inl rfl⟩ rfl) (o := .check 1) ⟨rfl, .inl rfl⟩ rfl) (o := .startup 0 true) ⟨rfl, rfl⟩ rfl)
example := C160_race_violated (n := 3) (by decide)
example := C160_end_partial [.construct 0 false, .construct 1 true, .construct 2 true] (by simp) (by decide)
end Flame

end Flame
