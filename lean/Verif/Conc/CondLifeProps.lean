import Verif.Conc.CondLife
import Verif.Conc.CondVarProps

/-!
# C156: `wait(functor)`, `unwait` and the destructor of the condition variable
-/

namespace Flame
open Flame.Conc
open Flame.Conc.CondVar (PC Call next Reaches)
open Flame.Own (upd upd_self upd_ne Reach runPre)

namespace CondLifeLemmas
open CondVarLemmas

/-- `wait` returned at least once. -/
def some_returned (b : CondVar.St) : Prop := b.woke ≠ 0 ∨ b.early ≠ 0

theorem next_mono {s s' : CondVar.St} {t : Nat} {c : Option Call} (h : next s t c = some s') :
    s.woke ≤ s'.woke ∧ s.early ≤ s'.early := by
  unfold next at h
  cases ht : s.thr t <;> simp only [ht] at h
  case idle => cases c with
    | none => cases h
    | some c => cases c <;> simp only [Option.some.injEq] at h <;> subst h <;> simp
  all_goals first
    | (simp only [Option.some.injEq] at h; subst h; simp; done)
    | (split at h <;> first | (cases h; done) | (simp only [Option.some.injEq] at h; subst h; simp))

/-- A thread in `wait` that becomes idle has returned from it. -/
theorem wait_returns {s s' : CondVar.St} {t : Nat} (h : next s t none = some s') (hw : counted (s.thr t) = true ∨ s.thr t = .w1)
    (hi : s'.thr t = .idle) : some_returned s' := by
  unfold next at h
  cases ht : s.thr t <;> simp only [ht] at h <;> simp [ht, counted] at hw
  all_goals first
    | (simp only [Option.some.injEq] at h; subst h; simp [some_returned] at hi ⊢; done)
    | (split at h <;> first | (cases h; done) | (simp only [Option.some.injEq] at h; subst h; simp [some_returned] at hi ⊢))

/-- A thread in `wait` stays in it until it returns. -/
theorem wait_stays {s s' : CondVar.St} {t u : Nat} {c : Option Call} (h : next s t c = some s')
    (hw : counted (s.thr u) = true ∨ s.thr u = .w1) : counted (s'.thr u) = true ∨ s'.thr u = .w1 ∨ (u = t ∧ s'.thr u = .idle) := by
  by_cases e : u = t
  · subst e
    unfold next at h
    cases ht : s.thr u <;> simp only [ht] at h <;> simp [ht, counted] at hw
    all_goals first
      | (simp only [Option.some.injEq] at h; subst h; simp [counted]; done)
      | (split at h <;> first | (cases h; done) | (simp only [Option.some.injEq] at h; subst h; simp [counted]))
  · have : s'.thr u = s.thr u := by
      unfold next at h
      cases ht : s.thr t <;> simp only [ht] at h
      case idle => cases c with
        | none => cases h
        | some c => cases c <;> simp only [Option.some.injEq] at h <;> subst h <;> simp [upd_ne _ _ e]
      all_goals first
        | (simp only [Option.some.injEq] at h; subst h; simp [upd_ne _ _ e]; done)
        | (split at h <;> first | (cases h; done) | (simp only [Option.some.injEq] at h; subst h; simp [upd_ne _ _ e]))
    rw [this]
    rcases hw with hw | hw
    · exact .inl hw
    · exact .inr (.inl hw)

theorem call_next {s s' : CondVar.St} {t : Nat} (h : next s t (some .wait) = some s') (hi : s.thr t = .idle) : s'.thr t = .w1 := by
  simp only [next, hi, Option.some.injEq] at h
  subst h
  simp

structure Inv (n : Nat) (s : CondLife.St) : Prop where
  base : Reaches (waitNotify n) CondVar.init s.b
  alive : s.dead = false
  loop : ∀ t, s.mode t = .looping → counted (s.b.thr t) = true ∨ s.b.thr t = .w1
  small : ∀ t, s.mode t ≠ .plain → t < n
  check : ∀ t, s.mode t = .check → some_returned s.b
  evals : s.evals ≠ [] → some_returned s.b
  ret : s.returned = (s.evals.filter (·.2)).map (·.1)

theorem mono_returned {b b' : CondVar.St} (h : b.woke ≤ b'.woke ∧ b.early ≤ b'.early) (hr : some_returned b) : some_returned b' := by
  unfold some_returned at *
  omega

theorem inv_step {n : Nat} {s s' : CondLife.St} {o : CondLife.Op} (h : Inv n s) (hp : CondLife.basic n s o)
    (hs : CondLife.step s o = .ok s') : Inv n s' := by
  obtain ⟨h1, hd, h2, hsm, h3, h4, h5⟩ := h
  obtain ⟨hp, ha⟩ := hp
  cases o with
  | call t c =>
    simp only [CondLife.step] at hs
    split at hs <;> simp only [Res.ok.injEq] at hs <;> subst hs
    · rename_i b hb
      have hm := next_mono hb
      refine ⟨.step t (some c) h1 (fun k e => by cases e; exact ha) hb, hd, fun u hu => ?_, hsm, fun u hu => mono_returned hm (h3 u hu),
        fun hu => mono_returned hm (h4 hu), h5⟩
      rcases wait_stays hb (h2 u hu) with h | h | ⟨h, _⟩
      · exact .inl h
      · exact .inr h
      · subst h
        have := hp.2.1
        simp only at hu
        rw [hu] at this
        cases this
    · exact ⟨h1, hd, h2, hsm, h3, h4, h5⟩
  | waitFor t =>
    simp only [CondLife.step] at hs
    split at hs <;> simp only [Res.ok.injEq] at hs <;> subst hs
    · rename_i b hb
      have hm := next_mono hb
      refine ⟨.step t (some .wait) h1 (fun k e => by cases e; exact ⟨ha, by simp⟩) hb, hd, fun u hu => ?_, fun u hu => ?_, fun u hu => ?_,
        fun hu => mono_returned hm (h4 hu), h5⟩
      · by_cases e : u = t
        · subst e
          exact .inr (call_next hb hp.1)
        · simp only [upd_ne _ _ e] at hu
          rcases wait_stays hb (h2 u hu) with h | h | ⟨h, _⟩
          · exact .inl h
          · exact .inr h
          · exact absurd h e
      · by_cases e : u = t
        · subst e; exact ha
        · simp only [upd_ne _ _ e] at hu; exact hsm u hu
      · by_cases e : u = t
        · subst e; simp at hu
        · simp only [upd_ne _ _ e] at hu; exact mono_returned hm (h3 u hu)
    · exact ⟨h1, hd, h2, hsm, h3, h4, h5⟩
  | unwait t => exact ha.elim
  | destroy t => exact ha.elim
  | finish t => exact ha.elim
  | set v =>
    simp only [CondLife.step, Res.ok.injEq] at hs
    subst hs
    exact ⟨h1, hd, h2, hsm, h3, h4, h5⟩
  | adv t =>
    simp only [CondLife.step, hd, Bool.false_and, Bool.false_eq_true, if_false] at hs
    split at hs <;> simp only [Res.ok.injEq] at hs <;> subst hs
    · rename_i b hb
      have hm := next_mono hb
      have hret : s.mode t = .looping → b.thr t = .idle → some_returned b := fun hl hi => wait_returns hb (h2 t hl).symm.symm hi
      refine ⟨one h1 t hb, rfl, fun u hu => ?_, fun u hu => ?_, fun u hu => ?_, fun hu => mono_returned hm (h4 hu), h5⟩
      · simp only at hu
        split at hu
        · rename_i hc
          by_cases e : u = t
          · subst e; simp at hu
          · rw [upd_ne _ _ e] at hu
            rcases wait_stays hb (h2 u hu) with h | h | ⟨h, _⟩
            · exact .inl h
            · exact .inr h
            · exact absurd h e
        · rename_i hc
          rcases wait_stays hb (h2 u hu) with h | h | ⟨h, hi⟩
          · exact .inl h
          · exact .inr h
          · subst h; exact absurd ⟨hu, hi⟩ hc
      · simp only at hu
        split at hu
        · rename_i hc
          by_cases e : u = t
          · subst e; exact hsm u (by rw [hc.1]; simp)
          · rw [upd_ne _ _ e] at hu; exact hsm u hu
        · exact hsm u hu
      · simp only at hu
        split at hu
        · rename_i hc
          exact hret hc.1 hc.2
        · exact mono_returned hm (h3 u hu)
    · exact ⟨h1, hd, h2, hsm, h3, h4, h5⟩
  | eval t =>
    have hr := h3 t hp.2
    have htn := hsm t (by rw [hp.2]; simp)
    simp only [CondLife.step, hd, Bool.false_eq_true, if_false] at hs
    split at hs
    · simp only [Res.ok.injEq] at hs
      subst hs
      refine ⟨h1, rfl, fun u hu => ?_, fun u hu => ?_, fun u hu => hr, fun _ => hr, by simp [h5]⟩
      · by_cases e : u = t
        · subst e; simp at hu
        · simp only [upd_ne _ _ e] at hu; exact h2 u hu
      · by_cases e : u = t
        · subst e; exact htn
        · simp only [upd_ne _ _ e] at hu; exact hsm u hu
    · split at hs <;> simp only [Res.ok.injEq] at hs <;> subst hs
      · rename_i b hb
        have hm := next_mono hb
        have hr' := mono_returned hm hr
        refine ⟨.step t (some .wait) h1 (fun k e => by cases e; exact ⟨htn, by simp⟩) hb, rfl, fun u hu => ?_, fun u hu => ?_, fun u hu => hr',
          fun _ => hr', by simp [h5]⟩
        · by_cases e : u = t
          · subst e
            exact .inr (call_next hb hp.1)
          · simp only [upd_ne _ _ e] at hu
            rcases wait_stays hb (h2 u hu) with h | h | ⟨h, _⟩
            · exact .inl h
            · exact .inr h
            · exact absurd h e
        · by_cases e : u = t
          · subst e; exact htn
          · simp only [upd_ne _ _ e] at hu; exact hsm u hu
      · exact ⟨h1, hd, h2, hsm, h3, h4, h5⟩

theorem reach_inv {n : Nat} {c : Bool} {s : CondLife.St} (h : Reach CondLife.step (CondLife.basic n) (CondLife.start c) s) : Inv n s :=
  h.inv ⟨.refl, rfl, by simp [CondLife.start], by simp [CondLife.start], by simp [CondLife.start], by simp [CondLife.start], rfl⟩
    fun _ _ _ => inv_step

/-- One waiter `a`, the destructor in thread `b`, or everything over. -/
def Ending (a b : Nat) (w d : Nat) (s : CondLife.St) : Prop :=
  (∀ t, s.mode t = .plain) ∧ s.dying = some b ∧
    ((s.dead = false ∧ DuoSt a b w d s.b) ∨ (s.dead = true ∧ s.b.lk = false ∧ s.b.woke = w + 1 ∧ ∀ t, s.b.thr t = .idle))

theorem ending_step {a b w d : Nat} {s : CondLife.St} (h : Ending a b w d s) {o : CondLife.Op} (hp : CondLife.pre s o) :
    ∃ s', CondLife.step s o = .ok s' ∧ Ending a b w d s' := by
  obtain ⟨hm, hdy, hc⟩ := h
  cases o with
  | call t c | waitFor t | unwait t | destroy t => have := hp.2.2; rw [hdy] at this; cases this
  | eval t => have := hp.2; rw [hm] at this; cases this
  | set v => exact ⟨_, rfl, hm, hdy, hc⟩
  | adv t =>
    rcases hc with ⟨hd, hduo⟩ | ⟨_, _, _, hi⟩
    · simp only [CondLife.step, hd, Bool.false_and, Bool.false_eq_true, if_false, hm]
      cases hb : next s.b t none with
      | none => exact ⟨s, rfl, hm, hdy, .inl ⟨hd, hduo⟩⟩
      | some b' => exact ⟨_, rfl, by simpa using hm, hdy, .inl ⟨rfl, (duo_step hduo hb).1⟩⟩
    · exact absurd (hi t) hp
  | finish t =>
    obtain ⟨h1, h2, h3⟩ := hp
    rw [hdy] at h1
    cases h1
    rcases hc with ⟨hd, hduo⟩ | ⟨hd, _⟩
    · have hda := hduo.duo
      have hw := hduo.woke
      rw [h2] at hda
      have hia : s.b.thr a = .idle := by
        cases ha : s.b.thr a <;> rw [ha] at hda <;> simp [Duo] at hda ⊢
      rw [hia] at hda hw
      simp only [Duo] at hda
      refine ⟨{ s with b := { s.b with lk := false, flag := false }, dead := true }, by simp only [CondLife.step, hda.2.2, if_true], hm, hdy, .inr ⟨rfl, rfl, by simpa using hw, fun t => ?_⟩⟩
      show s.b.thr t = .idle
      by_cases e : t = a
      · rw [e, hia]
      · by_cases e' : t = b
        · rw [e', h2]
        · exact hduo.others t e e'
    · rw [hd] at h3; cases h3

end CondLifeLemmas
open CondLifeLemmas CondVarLemmas

/-- **C156, part.** `wait(functor)` returns only after its functor returned true, and the functor is looked at only after some wait has returned. -/
theorem C156_functor_partial {n : Nat} {c : Bool} {s : CondLife.St} (h : Reach CondLife.step (CondLife.basic n) (CondLife.start c) s) :
    s.returned = (s.evals.filter (·.2)).map (·.1) ∧ (s.evals ≠ [] → s.b.woke ≠ 0 ∨ s.b.early ≠ 0) :=
  ⟨(reach_inv h).ret, (reach_inv h).evals⟩

/-- **C156 fails: a condition that already holds.** However often the condition was true and `notify` was called with nobody waiting: as long
as no `notify` has found a waiter, no `wait(functor)` has returned, not even looked at its functor, and every thread that called it is in it. -/
theorem C156_ready_violated {n : Nat} (hn : n ≤ 255) {c : Bool} {s : CondLife.St}
    (h : Reach CondLife.step (CondLife.basic n) (CondLife.start c) s) (hr : s.b.released = false) :
    s.evals = [] ∧ s.returned = [] ∧ ∀ t, s.mode t ≠ .plain → s.b.thr t = .w1 ∨ s.b.thr t = .w2 ∨ s.b.thr t = .w3 := by
  have hi := reach_inv h
  obtain ⟨h1, h2, _⟩ := C41_blocked_partial hn hi.base hr
  have hno : ¬ some_returned s.b := by simp [some_returned, h1, h2]
  have he : s.evals = [] := by
    cases e : s.evals with
    | nil => rfl
    | cons x l => exact absurd (hi.evals (by simp [e])) hno
  refine ⟨he, by rw [hi.ret, he]; rfl, fun t ht => ?_⟩
  have hb := (reaches_inv hn hi.base).blocked hr
  have hth := hb.2.2.2 t
  cases hm : s.mode t with
  | plain => exact absurd hm ht
  | check => exact absurd (hi.check t hm) hno
  | looping =>
    rcases hi.loop t hm with h | h
    · cases e : s.b.thr t <;> simp [e, counted] at h <;> simp [e, through] at hth ⊢
    · exact .inl h

/-- **C156 fails: `unwait` without waiters.** The counter wraps: `isWait` says that somebody waits, and the next `wait` returns at once. -/
theorem C156_unwait_none_violated {s : CondLife.St} (hc : s.b.cnt = 0) (hd : s.dead = false) (hy : s.dying = none) {t : Nat} (ht : s.b.thr t = .idle)
    (hm : s.mode t = .plain) :
    (runPre CondLife.step CondLife.pre s [.unwait t]).map CondLife.isWait = some true ∧
    (runPre CondLife.step CondLife.pre s [.unwait t, .call t .wait, .adv t, .adv t]).map (fun u => (u.b.thr t, u.b.early, u.b.lk)) =
      some (.idle, s.b.early + 1, s.b.lk) := by
  constructor <;> simp [runPre, CondLife.pre, CondLife.step, CondLife.isWait, next, *]

/-- **C156 fails: `unwait` with a waiter.** While one thread waits, `unwait` and then `notify` do not wake it: it stays blocked at the lock. -/
theorem C156_unwait_one_violated {s : CondLife.St} (hc : s.b.cnt = 1) (hd : s.dead = false) (hy : s.dying = none) {a t : Nat}
    (ha : s.b.thr a = .w3) (hl : s.b.lk = true) (ht : s.b.thr t = .idle) (hm : s.mode t = .plain) :
    (runPre CondLife.step CondLife.pre s [.unwait t, .call t .notify, .adv t]).map
      (fun u => (u.b.thr t, u.b.thr a, u.b.lk, CondLife.isWait u, next u.b a none)) = some (.idle, .w3, true, false, none) := by
  have hat : a ≠ t := by rintro rfl; rw [ha] at ht; cases ht
  simp [runPre, CondLife.pre, CondLife.step, CondLife.isWait, next, upd_ne _ _ hat, *]

/-- **C156, part: the destructor, one waiter.** One thread waits and another one runs the destructor: whatever happens, nothing touches the
destroyed object, and when the destructor has returned the wait has returned and the lock is free; until then something can happen
that brings the end nearer. -/
theorem C156_destroy_partial {s : CondLife.St} (hm : ∀ t, s.mode t = .plain) (hd : s.dead = false) {a b : Nat} (hab : a ≠ b)
    (ha : s.b.thr a = .w2 ∨ s.b.thr a = .w3) (ho : ∀ t, t ≠ a → s.b.thr t = .idle) (hc : s.b.cnt = 1) (hl : s.b.lk = true)
    (hf : s.b.flag = true) {s₁ : CondLife.St} (h₁ : CondLife.step s (.destroy b) = .ok s₁) {s' : CondLife.St}
    (h : Reach CondLife.step CondLife.pre s₁ s') :
    (∀ o, CondLife.pre s' o → ∃ u, CondLife.step s' o = .ok u) ∧
    (s'.dead = true → s'.b.lk = false ∧ s'.b.woke = s.b.woke + 1 ∧ ∀ t, s'.b.thr t = .idle) ∧
    (s'.dead = false → (∃ u, CondLife.pre s' (.finish b) ∧ CondLife.step s' (.finish b) = .ok u ∧ u.dead = true) ∨
      ∃ t u, CondLife.pre s' (.adv t) ∧ CondLife.step s' (.adv t) = .ok u ∧
        rank (u.b.thr a) + rank (u.b.thr b) < rank (s'.b.thr a) + rank (s'.b.thr b)) := by
  have hb := ho b (fun e => hab e.symm)
  simp only [CondLife.step, next, hb, Res.ok.injEq] at h₁
  have he : Ending a b s.b.woke s.b.done s₁ := by
    subst h₁
    refine ⟨hm, rfl, .inl ⟨hd, hab, ?_, fun t h1 h2 => by simp [upd_ne _ _ h2, ho t h1], ?_, by simp⟩⟩
    · rcases ha with ha | ha <;> simp [upd_ne _ _ hab, ha, Duo, hc, hl, hf]
    · rcases ha with ha | ha <;> simp [upd_ne _ _ hab, ha]
  have he' : Ending a b s.b.woke s.b.done s' := h.inv he fun u o v hu hp hs => by
    obtain ⟨v', h1, h2⟩ := ending_step hu hp
    rw [h1] at hs
    cases hs
    exact h2
  refine ⟨fun o hp => (ending_step he' hp).imp fun _ h => h.1, fun hdd => ?_, fun hdd => ?_⟩
  · rcases he'.2.2 with ⟨h0, _⟩ | ⟨_, h1, h2, h3⟩
    · rw [hdd] at h0; cases h0
    · exact ⟨h1, h2, h3⟩
  · rcases he'.2.2 with ⟨_, hduo⟩ | ⟨h0, _⟩
    · by_cases hend : s'.b.thr a = .idle ∧ s'.b.thr b = .idle
      · have hp : CondLife.pre s' (.finish b) := ⟨he'.2.1, hend.2, hdd⟩
        refine .inl ?_
        obtain ⟨u, h1, h2⟩ := ending_step he' hp
        refine ⟨u, hp, h1, ?_⟩
        simp only [CondLife.step] at h1
        split at h1 <;> cases h1 <;> rfl
      · obtain ⟨t, b', ht, hn, hlt⟩ := duo_progress hduo hend
        refine .inr ⟨t, _, fun hi => ?_, by simp only [CondLife.step, hdd, Bool.false_and, Bool.false_eq_true, if_false, hn]; rfl, hlt⟩
        simp [next, hi] at hn
    · rw [hdd] at h0; cases h0

/-- **C156, part: the destructor, no waiter.** Without waiters the destructor returns and frees the lock. -/
theorem C156_destroy_alone {s : CondLife.St} (hd : s.dead = false) (hy : s.dying = none) {b : Nat} (hb : s.b.thr b = .idle) (hm : s.mode b = .plain)
    (hc : s.b.cnt = 0) (hf : s.b.flag = true) :
    (runPre CondLife.step CondLife.pre s [.destroy b, .adv b, .finish b]).map (fun u => (u.dead, u.b.lk)) = some (true, false) := by
  simp [runPre, CondLife.pre, CondLife.step, next, *]

/-- **C156 fails: two waiters, undefined.** With two threads waiting, one may be woken by the destructor, which then returns and frees the lock; the
other one gets the lock and writes to the destroyed object. -/
theorem C156_destroy_ub {s : CondLife.St} (hd : s.dead = false) (hy : s.dying = none) {a b c : Nat} (hab : a ≠ b) (ha : s.b.thr a = .w3)
    (hb : s.b.thr b = .w3) (hc : s.b.thr c = .idle) (hm : s.mode c = .plain) (hn : 2 ≤ s.b.cnt) (hn' : s.b.cnt ≤ 255) (hl : s.b.lk = true)
    (hf : s.b.flag = true) :
    (runPre CondLife.step CondLife.pre s [.destroy c, .adv c, .adv c, .adv c, .adv a, .adv a, .adv a, .adv a, .adv a,
      .adv c, .adv c, .adv c, .adv c, .finish c, .adv b]).map (fun u => (CondLife.step u (.adv b), u.dead)) = some (.ub, true) := by
  have hac : a ≠ c := by rintro rfl; rw [ha] at hc; cases hc
  have hbc : b ≠ c := by rintro rfl; rw [hb] at hc; cases hc
  have hca := hac.symm; have hcb := hbc.symm; have hba := hab.symm
  have h0 : s.b.cnt ≠ 0 := by omega
  have h1 : (s.b.cnt + 255) % 256 = s.b.cnt - 1 := by omega
  simp [runPre, CondLife.pre, CondLife.step, next, CondLife.touches, upd, *]

/-- **C156 fails: two waiters, no end.** If all waiters pass before the destructor looks at the counter again, it never returns. -/
theorem C156_destroy_hangs {s : CondLife.St} {c k w : Nat} (hd : s.dead = false) (hy : s.dying = some c) (hc : s.b.thr c = .n4 k w)
    (hn : s.b.cnt ≠ k - 1) (ho : ∀ t, t ≠ c → s.b.thr t = .idle) (hm : ∀ t, s.mode t = .plain) {s' : CondLife.St}
    (h : Reach CondLife.step CondLife.pre s s') : s'.dead = false ∧ s'.b = s.b := by
  have := h.inv (P := fun u => u.dead = false ∧ u.b = s.b ∧ u.dying = some c ∧ ∀ t, u.mode t = .plain) ⟨hd, rfl, hy, hm⟩
    fun u o v hu hp hs => by
      obtain ⟨h1, h2, h3, h4⟩ := hu
      cases o with
      | call t c | waitFor t | unwait t | destroy t => have := hp.2.2; rw [h3] at this; cases this
      | eval t => have := hp.2; rw [h4] at this; cases this
      | set v => simp only [CondLife.step, Res.ok.injEq] at hs; subst hs; exact ⟨h1, h2, h3, h4⟩
      | adv t =>
        have e : t = c := by
          apply Classical.byContradiction
          intro e
          exact hp (by rw [h2]; exact ho t e)
        subst e
        simp only [CondLife.step, h1, h2, next, hc, hn, h4, if_false, Bool.false_and, Bool.false_eq_true, Res.ok.injEq] at hs
        subst hs
        exact ⟨rfl, rfl, h3, by simpa using h4⟩
      | finish t =>
        obtain ⟨q1, q2, _⟩ := hp
        rw [h3] at q1
        cases q1
        rw [h2, hc] at q2
        cases q2
  exact ⟨this.1, this.2.1⟩

/-! ## Concrete cases -/

theorem C156_case_basic (os : List CondLife.Op) (n : Nat) {s : CondLife.St} (h : runPre CondLife.step CondLife.pre (CondLife.start true) os = some s)
    (hb : ∀ o ∈ os, match o with
      | .call t c => t < n ∧ c ≠ .tryWait
      | .waitFor t => t < n
      | .unwait _ | .destroy _ | .finish _ => False
      | _ => True) : Reach CondLife.step (CondLife.basic n) (CondLife.start true) s := by
  suffices H : ∀ (os : List CondLife.Op) (a s : CondLife.St), Reach CondLife.step (CondLife.basic n) (CondLife.start true) a →
      runPre CondLife.step CondLife.pre a os = some s → (∀ o ∈ os, match o with
      | .call t c => t < n ∧ c ≠ .tryWait
      | .waitFor t => t < n
      | .unwait _ | .destroy _ | .finish _ => False
      | _ => True) → Reach CondLife.step (CondLife.basic n) (CondLife.start true) s from H os _ s .start h hb
  intro os
  induction os with
  | nil => intro a s h e _; cases e; exact h
  | cons o os ih =>
    intro a s h e hb
    simp only [runPre] at e
    split at e
    · rename_i hp
      split at e
      · rename_i s' hs'
        exact ih _ _ (.step h ⟨hp, hb o (by simp)⟩ hs') e fun q hq => hb q (by simp [hq])
      · cases e
    · cases e

/-- The condition holds from the beginning, a notification was sent; then `wait(functor)` is called and blocks. -/
example : ∃ s, Reach CondLife.step (CondLife.basic 2) (CondLife.start true) s ∧ s.cond = true ∧ s.b.released = false ∧ s.mode 1 = .looping ∧
    s.b.thr 1 = .w3 ∧ s.b.thr 0 = .idle := by
  refine ⟨_, C156_case_basic [.call 0 .notify, .adv 0, .waitFor 1, .adv 1, .adv 1] 2 rfl (by simp), ?_⟩
  decide

/-- `wait(functor)` looks twice: the functor returns false, then true. -/
example : ∃ s, Reach CondLife.step (CondLife.basic 2) (CondLife.start true) s ∧ s.evals = [(1, false), (1, true)] ∧ s.returned = [1] := by
  refine ⟨_, C156_case_basic ([.set false, .waitFor 1, .adv 1, .adv 1, .call 0 .notify, .adv 0, .adv 0, .adv 0, .adv 1, .adv 1, .adv 1, .adv 1, .adv 1,
    .adv 0, .adv 0, .adv 0, .adv 0, .eval 1, .adv 1, .adv 1, .set true, .call 0 .notify, .adv 0, .adv 0, .adv 0, .adv 1, .adv 1, .adv 1, .adv 1, .adv 1,
    .eval 1]) 2 rfl (by simp), ?_⟩
  decide

/-- Two waiters, as in `C156_destroy_ub`; one of them alone is `C156_unwait_one_violated` and `C156_destroy_partial`. -/
example : ∃ s, Reach CondLife.step CondLife.pre (CondLife.start true) s ∧
    (s.dead, s.dying, s.b.thr 0, s.b.thr 1, s.b.thr 2, s.b.cnt, s.b.lk, s.b.flag) = (false, none, .w3, .w3, .idle, 2, true, true) :=
  Reach.witness [.call 0 .wait, .adv 0, .adv 0, .call 1 .wait, .adv 1, .adv 1] _ _ rfl

example : ∃ s, Reach CondLife.step CondLife.pre (CondLife.start true) s ∧
    (s.dead, s.dying, s.b.thr 0, s.b.thr 1, s.b.thr 2, s.b.cnt, s.b.lk, s.b.flag) = (false, none, .w3, .idle, .idle, 1, true, true) :=
  Reach.witness [.call 0 .wait, .adv 0, .adv 0] _ _ rfl

/-- A state as in `C156_destroy_hangs`. -/
example : ∃ s, Reach CondLife.step CondLife.pre (CondLife.start true) s ∧
    (s.dead, s.dying, s.b.thr 0, s.b.thr 1, s.b.thr 2, s.b.cnt) = (false, some 2, .idle, .idle, .n4 2 0, 0) :=
  Reach.witness [.call 0 .wait, .adv 0, .adv 0, .call 1 .wait, .adv 1, .adv 1, .destroy 2, .adv 2, .adv 2, .adv 2,
    .adv 0, .adv 0, .adv 0, .adv 0, .adv 0, .adv 1, .adv 1, .adv 1, .adv 1, .adv 1] _ _ rfl

/-! The theorems at concrete states: one waiter, two waiters, and a destructor that waits for a count that never comes. -/

namespace Conc.CondLife

def exOne : CondLife.St := Own.visit CondLife.step CondLife.pre (CondLife.start true) [.call 0 .wait, .adv 0, .adv 0]

def exTwo : CondLife.St := Own.visit CondLife.step CondLife.pre (CondLife.start true) [.call 0 .wait, .adv 0, .adv 0, .call 1 .wait, .adv 1, .adv 1]

theorem exOne_idle (t : Nat) (h : t ≠ 0) : exOne.b.thr t = .idle := by
  have e : exOne.b.thr = upd (upd (upd (fun _ => .idle) 0 .w1) 0 .w2) 0 .w3 := rfl
  rw [e]
  simp [upd, h]

end Conc.CondLife

example := C156_functor_partial (C156_case_basic [.call 0 .notify, .adv 0, .waitFor 1, .adv 1, .adv 1] 2 rfl (by simp))
example := C156_ready_violated (n := 2) (by decide) (C156_case_basic [.call 0 .notify, .adv 0, .waitFor 1, .adv 1, .adv 1] 2 rfl (by simp)) rfl
example := C156_unwait_none_violated (s := CondLife.start true) rfl rfl rfl (t := 3) rfl rfl
example := C156_unwait_one_violated (s := CondLife.exOne) rfl rfl rfl (a := 0) (t := 3) rfl rfl rfl rfl
example := C156_destroy_partial (s := CondLife.exOne) (fun _ => rfl) rfl (a := 0) (b := 2) (by decide) (.inr rfl) CondLife.exOne_idle rfl rfl rfl rfl .start
example := C156_destroy_alone (s := CondLife.start true) rfl rfl (b := 3) rfl rfl rfl rfl
example := C156_destroy_ub (s := CondLife.exTwo) rfl rfl (a := 0) (b := 1) (c := 2) (by decide) rfl rfl rfl rfl (by decide) (by decide) rfl rfl
example := C156_destroy_hangs (s := { CondLife.start true with
  dying := some 2
  b := { CondVar.init with thr := upd (fun _ => .idle) 2 (.n4 2 0) } }) (c := 2) (k := 2) (w := 0) rfl rfl rfl (by decide)
  (fun t h => by simp [upd, h]) (fun _ => rfl) .start

end Flame
