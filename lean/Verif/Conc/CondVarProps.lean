import Verif.Conc.CondVar

/-!
# C41 — the condition variable
-/

namespace Flame
open Conc Conc.CondVar
open Flame.Own (upd upd_self upd_ne)

/-- Threads `0 … n-1` wait and notify as they like; `tryWait` is not used. -/
def waitNotify (n : Nat) (t : Nat) (c : Call) : Prop := t < n ∧ c ≠ .tryWait

namespace CondVarLemmas

theorem Reaches.trans {allow : Nat → Call → Prop} {a b c : CondVar.St} (h1 : Reaches allow a b) (h2 : Reaches allow b c) :
    Reaches allow a c := by
  induction h2 with
  | refl => exact h1
  | step t k _ ha hn ih => exact .step t k ih ha hn

theorem Reaches.play {allow : Nat → Call → Prop} {a : CondVar.St} {l : List (Nat × Option Call)} :
    ∀ {s s' : CondVar.St}, Reaches allow a s → (∀ p ∈ l, ∀ k, p.2 = some k → allow p.1 k) → CondVar.play s l = some s' →
      Reaches allow a s' := by
  induction l with
  | nil => intro s s' h _ hp; cases hp; exact h
  | cons p l ih =>
    intro s s' h ha hp
    obtain ⟨t, c⟩ := p
    simp only [CondVar.play, Option.bind_eq_some_iff] at hp
    obtain ⟨s1, h1, h2⟩ := hp
    exact ih (.step t c h (fun k e => ha (t, c) (by simp) k e) h1) (fun q hq => ha q (by simp [hq])) h2

/-- Counted in `counter`. -/
def counted : PC → Bool
  | .w2 | .w3 | .w4 | .w5 | .w6 | .w7 => true
  | _ => false

/-- Past the lock. -/
def through : PC → Bool
  | .w4 | .w5 | .w6 | .w7 | .n3 _ _ | .n4 _ _ | .n5 _ | .n6 _ | .n7 _ => true
  | _ => false

def trying : PC → Bool
  | .y1 | .y2 | .y3 | .y4 | .y5 => true
  | _ => false

def active (n : Nat) (f : Nat → PC) : Nat := (List.range n).countP fun t => counted (f t)

theorem active_upd {n t : Nat} (ht : t < n) (f : Nat → PC) (p : PC) :
    active n (upd f t p) + (if counted (f t) then 1 else 0) = active n f + (if counted p then 1 else 0) := by
  have out : ∀ {m}, m ≤ t → active m (upd f t p) = active m f := by
    intro m hm
    apply List.countP_congr
    intro x hx
    rw [List.mem_range] at hx
    rw [upd_ne _ _ (by omega)]
  induction n with
  | zero => omega
  | succ n ih =>
    simp only [active, List.range_succ, List.countP_append, List.countP_cons, List.countP_nil] at *
    by_cases e : t = n
    · subst e
      rw [out (Nat.le_refl t), upd_self]
      omega
    · have := ih (by omega)
      rw [upd_ne _ _ (show n ≠ t by omega)]
      omega

structure Inv (n : Nat) (s : CondVar.St) : Prop where
  idle : ∀ t, n ≤ t → s.thr t = .idle
  count : s.cnt = active n s.thr
  noTry : ∀ t, trying (s.thr t) = false
  early : s.early = 0
  notifier : ∀ t c w, (s.thr t = .n2 c w ∨ s.thr t = .n3 c w ∨ s.thr t = .n4 c w) →
    0 < c ∧ w ≤ s.woke ∧ c ≤ s.cnt + (s.woke - w)
  passed : ∀ t w, (s.thr t = .n5 w ∨ s.thr t = .n6 w ∨ s.thr t = .n7 w) → w < s.woke
  blocked : s.released = false → s.lk = true ∧ s.woke = 0 ∧ s.done = 0 ∧ ∀ t, through (s.thr t) = false

theorem active_le (n : Nat) (f : Nat → PC) : active n f ≤ n := by
  have := List.countP_le_length (p := fun t => counted (f t)) (l := List.range n)
  simpa [active] using this

theorem inv_init (n : Nat) : Inv n init := by
  refine ⟨fun _ _ => rfl, ?_, fun _ => rfl, rfl, ?_, ?_, fun _ => ⟨rfl, rfl, rfl, fun _ => rfl⟩⟩
  · have : ∀ l : List Nat, l.countP (fun t => counted (init.thr t)) = 0 := by
      intro l
      induction l with
      | nil => rfl
      | cons x l ih => simp [init, counted]
    simp [active, this]; rfl
  · intro t c w h; simp [init] at h
  · intro t w h; simp [init] at h

/-- A step of thread `t` to `p`: what has to be shown. -/
theorem inv_go {n : Nat} {s s' : CondVar.St} (h : Inv n s) {t : Nat} {p : PC} (ht : t < n)
    (hthr : s'.thr = upd s.thr t p) (hnt : trying p = false) (hearly : s'.early = s.early)
    (hwoke : s.woke ≤ s'.woke) (hcnt : s'.cnt = active n (upd s.thr t p)) (hgain : s.cnt + s.woke ≤ s'.cnt + s'.woke)
    (hn : ∀ c w, (p = .n2 c w ∨ p = .n3 c w ∨ p = .n4 c w) → 0 < c ∧ w ≤ s'.woke ∧ c ≤ s'.cnt + (s'.woke - w))
    (hpass : ∀ w, (p = .n5 w ∨ p = .n6 w ∨ p = .n7 w) → w < s'.woke)
    (hb : s'.released = false → s.released = false ∧ s'.lk = true ∧ s'.woke = 0 ∧ s'.done = 0 ∧ through p = false) :
    Inv n s' := by
  refine ⟨fun u hu => ?_, ?_, fun u => ?_, ?_, ?_, ?_, ?_⟩
  · rw [hthr, upd_ne _ _ (by omega)]; exact h.idle u hu
  · rw [hcnt, hthr]
  · rw [hthr]
    by_cases hu : u = t
    · subst hu; simpa using hnt
    · rw [upd_ne _ _ hu]; exact h.noTry u
  · rw [hearly]; exact h.early
  · intro u c w e
    rw [hthr] at e
    by_cases hu : u = t
    · subst hu; rw [upd_self] at e; exact hn c w e
    · rw [upd_ne _ _ hu] at e
      obtain ⟨e1, e2, e3⟩ := h.notifier u c w e
      exact ⟨e1, by omega, by omega⟩
  · intro u w e
    rw [hthr] at e
    by_cases hu : u = t
    · subst hu; rw [upd_self] at e; exact hpass w e
    · rw [upd_ne _ _ hu] at e
      have := h.passed u w e
      omega
  · intro hr
    obtain ⟨b0, b1, b2, b3, b4⟩ := hb hr
    refine ⟨b1, b2, b3, fun u => ?_⟩
    rw [hthr]
    by_cases hu : u = t
    · subst hu; simpa using b4
    · rw [upd_ne _ _ hu]; exact (h.blocked b0).2.2.2 u

theorem inv_step {n : Nat} (hn : n ≤ 255) {s s' : CondVar.St} (h : Inv n s) {t : Nat} {k : Option Call}
    (ha : ∀ c, k = some c → waitNotify n t c) (hs : next s t k = some s') : Inv n s' := by
  have htn : s.thr t ≠ .idle → t < n := by
    intro hne
    rcases Nat.lt_or_ge t n with hl | hge
    · exact hl
    · exact absurd (h.idle t hge) hne
  have hle := active_le n s.thr
  have hc := h.count
  have upd_same : ∀ {p}, t < n → counted p = counted (s.thr t) → active n (upd s.thr t p) = s.cnt := by
    intro p ht e
    have := active_upd ht s.thr p
    rw [e] at this
    omega
  have nothr : s.released = false → through (s.thr t) = false := fun e => (h.blocked e).2.2.2 t
  cases e : s.thr t with
  | idle =>
    cases k with
    | none => simp [next, e] at hs
    | some c =>
      obtain ⟨ht, hc'⟩ := ha c rfl
      have hb := h.blocked
      cases c with
      | wait =>
        simp [next, e] at hs; subst hs
        exact inv_go h ht rfl rfl rfl (by simp) (by simp [upd_same (p := .w1) ht (by rw [e]; rfl)]) (by simp)
          (by simp) (by simp) (fun hr => ⟨hr, (hb hr).1, (hb hr).2.1, (hb hr).2.2.1, rfl⟩)
      | notify =>
        simp [next, e] at hs; subst hs
        exact inv_go h ht rfl rfl rfl (by simp) (by simp [upd_same (p := .n1) ht (by rw [e]; rfl)]) (by simp)
          (by simp) (by simp) (fun hr => ⟨hr, (hb hr).1, (hb hr).2.1, (hb hr).2.2.1, rfl⟩)
      | tryWait => exact absurd rfl hc'
  | w1 =>
    have ht := htn (by rw [e]; simp)
    have hb := h.blocked
    have hu := active_upd ht s.thr .w2
    have hu2 := active_le n (upd s.thr t .w2)
    rw [e] at hu
    simp [counted] at hu
    simp [next, e] at hs; subst hs
    refine inv_go h ht rfl rfl rfl (by simp) ?_ ?_ (by simp) (by simp)
      (fun hr => ⟨hr, (hb hr).1, (hb hr).2.1, (hb hr).2.2.1, rfl⟩)
    · show (s.cnt + 1) % 256 = _
      rw [Nat.mod_eq_of_lt (by omega)]; omega
    · show _ ≤ (s.cnt + 1) % 256 + s.woke
      rw [Nat.mod_eq_of_lt (by omega)]; omega
  | w2 =>
    have ht := htn (by rw [e]; simp)
    have hb := h.blocked
    have hu := active_upd ht s.thr .idle
    rw [e] at hu
    simp [counted] at hu
    simp only [next, e] at hs
    rw [if_neg (by omega)] at hs
    simp at hs; subst hs
    exact inv_go h ht rfl rfl rfl (by simp) (by simp [upd_same (p := .w3) ht (by rw [e]; rfl)]) (by simp)
      (by simp) (by simp) (fun hr => ⟨hr, (hb hr).1, (hb hr).2.1, (hb hr).2.2.1, rfl⟩)
  | w3 =>
    have ht := htn (by rw [e]; simp)
    simp only [next, e] at hs
    cases hl : s.lk with
    | true => rw [hl] at hs; simp at hs
    | false =>
      rw [hl] at hs; simp at hs; subst hs
      refine inv_go h ht rfl rfl rfl (by simp) (by simp [upd_same (p := .w4) ht (by rw [e]; rfl)]) (by simp)
        (by simp) (by simp) (fun hr => ?_)
      have := (h.blocked hr).1
      rw [hl] at this; cases this
  | w4 =>
    have ht := htn (by rw [e]; simp)
    simp [next, e] at hs; subst hs
    refine inv_go h ht rfl rfl rfl (by simp) (by simp [upd_same (p := .w5) ht (by rw [e]; rfl)]) (by simp)
      (by simp) (by simp) (fun hr => ?_)
    have := nothr hr
    rw [e] at this; cases this
  | w5 =>
    have ht := htn (by rw [e]; simp)
    simp [next, e] at hs; subst hs
    refine inv_go h ht rfl rfl rfl (by simp) (by simp [upd_same (p := .w6) ht (by rw [e]; rfl)]) (by simp)
      (by simp) (by simp) (fun hr => ?_)
    have := nothr hr
    rw [e] at this; cases this
  | w6 =>
    have ht := htn (by rw [e]; simp)
    simp [next, e] at hs; subst hs
    refine inv_go h ht rfl rfl rfl (by simp) (by simp [upd_same (p := .w7) ht (by rw [e]; rfl)]) (by simp)
      (by simp) (by simp) (fun hr => ?_)
    have := nothr hr
    rw [e] at this; cases this
  | w7 =>
    have ht := htn (by rw [e]; simp)
    have hu := active_upd ht s.thr .idle
    rw [e] at hu
    simp [counted] at hu
    have hm : (s.cnt + 255) % 256 = s.cnt - 1 := by
      rw [show s.cnt + 255 = (s.cnt - 1) + 256 by omega, Nat.add_mod_right, Nat.mod_eq_of_lt (by omega)]
    simp [next, e] at hs; subst hs
    refine inv_go h ht rfl rfl rfl (by simp) ?_ ?_ (by simp) (by simp) (fun hr => ?_)
    · show (s.cnt + 255) % 256 = _
      omega
    · show _ ≤ (s.cnt + 255) % 256 + (s.woke + 1)
      omega
    · have := nothr hr
      rw [e] at this; cases this
  | n1 =>
    have ht := htn (by rw [e]; simp)
    have hb := h.blocked
    simp only [next, e] at hs
    split at hs
    · simp at hs; subst hs
      exact inv_go h ht rfl rfl rfl (by simp) (by simp [upd_same (p := .idle) ht (by rw [e]; rfl)]) (by simp)
        (by simp) (by simp) (fun hr => ⟨hr, (hb hr).1, (hb hr).2.1, (hb hr).2.2.1, rfl⟩)
    · simp at hs; subst hs
      refine inv_go h ht rfl rfl rfl (by simp) (by simp [upd_same (p := .n2 s.cnt s.woke) ht (by rw [e]; rfl)]) (by simp)
        ?_ (by simp) (fun hr => ⟨hr, (hb hr).1, (hb hr).2.1, (hb hr).2.2.1, rfl⟩)
      intro c w hp
      simp at hp
      obtain ⟨rfl, rfl⟩ := hp
      exact ⟨by omega, by simp, by simp⟩
  | n2 c w =>
    have ht := htn (by rw [e]; simp)
    have hnot := h.notifier t c w (.inl e)
    simp [next, e] at hs; subst hs
    refine inv_go h ht rfl rfl rfl (by simp) (by simp [upd_same (p := .n3 c w) ht (by rw [e]; rfl)]) (by simp)
      ?_ (by simp) (by simp)
    intro c' w' hp
    simp at hp
    obtain ⟨rfl, rfl⟩ := hp
    exact hnot
  | n3 c w =>
    have ht := htn (by rw [e]; simp)
    have hnot := h.notifier t c w (.inr (.inl e))
    simp [next, e] at hs; subst hs
    refine inv_go h ht rfl rfl rfl (by simp) (by simp [upd_same (p := .n4 c w) ht (by rw [e]; rfl)]) (by simp)
      ?_ (by simp) (fun hr => ?_)
    · intro c' w' hp
      simp at hp
      obtain ⟨rfl, rfl⟩ := hp
      exact hnot
    · have := nothr hr
      rw [e] at this; cases this
  | n4 c w =>
    have ht := htn (by rw [e]; simp)
    have hnot := h.notifier t c w (.inr (.inr e))
    simp only [next, e] at hs
    split at hs
    · rename_i hcnt
      simp at hs; subst hs
      refine inv_go h ht rfl rfl rfl (by simp) (by simp [upd_same (p := .n5 w) ht (by rw [e]; rfl)]) (by simp)
        (by simp) ?_ (fun hr => ?_)
      · intro w' hp
        simp at hp
        subst hp
        show w < s.woke
        omega
      · have := nothr hr
        rw [e] at this; cases this
    · simp at hs; subst hs; exact h
  | n5 w =>
    have ht := htn (by rw [e]; simp)
    have hp := h.passed t w (.inl e)
    simp only [next, e] at hs
    split at hs
    · simp at hs; subst hs
      refine inv_go h ht rfl rfl rfl (by simp) (by simp [upd_same (p := .idle) ht (by rw [e]; rfl)]) (by simp)
        (by simp) (by simp) (fun hr => ?_)
      have := nothr hr
      rw [e] at this; cases this
    · simp at hs; subst hs
      refine inv_go h ht rfl rfl rfl (by simp) (by simp [upd_same (p := .n6 w) ht (by rw [e]; rfl)]) (by simp)
        (by simp) (by simpa using hp) (fun hr => ?_)
      have := nothr hr
      rw [e] at this; cases this
  | n6 w =>
    have ht := htn (by rw [e]; simp)
    have hp := h.passed t w (.inr (.inl e))
    simp only [next, e] at hs
    split at hs
    · simp at hs; subst hs
      refine inv_go h ht rfl rfl rfl (by simp) (by simp [upd_same (p := .n5 w) ht (by rw [e]; rfl)]) (by simp)
        (by simp) (by simpa using hp) (fun hr => ?_)
      have := nothr hr
      rw [e] at this; cases this
    · simp at hs; subst hs
      refine inv_go h ht rfl rfl rfl (by simp) (by simp [upd_same (p := .n7 w) ht (by rw [e]; rfl)]) (by simp)
        (by simp) (by simpa using hp) (fun hr => ?_)
      have := nothr hr
      rw [e] at this; cases this
  | n7 w =>
    have ht := htn (by rw [e]; simp)
    simp [next, e] at hs; subst hs
    refine inv_go h ht rfl rfl rfl (by simp) (by simp [upd_same (p := .idle) ht (by rw [e]; rfl)]) (by simp)
      (by simp) (by simp) (fun hr => ?_)
    have := nothr hr
    rw [e] at this; cases this
  | y1 => have := h.noTry t; rw [e] at this; cases this
  | y2 => have := h.noTry t; rw [e] at this; cases this
  | y3 => have := h.noTry t; rw [e] at this; cases this
  | y4 => have := h.noTry t; rw [e] at this; cases this
  | y5 => have := h.noTry t; rw [e] at this; cases this

theorem reaches_inv {n : Nat} (hn : n ≤ 255) {s : CondVar.St} (h : Reaches (waitNotify n) init s) : Inv n s := by
  induction h with
  | refl => exact inv_init n
  | step t c _ ha hs ih => exact inv_step hn ih ha hs

/-- `k` threads wait (blocked at the lock), nothing else has happened. -/
structure Waiting (k : Nat) (s : CondVar.St) : Prop where
  low : ∀ t, t < k → s.thr t = .w3
  high : ∀ t, k ≤ t → s.thr t = .idle
  cnt : s.cnt = k
  lk : s.lk = true
  flag : s.flag = true
  woke : s.woke = 0
  early : s.early = 0
  released : s.released = false
  done : s.done = 0

theorem one {allow : Nat → Call → Prop} {a s s' : CondVar.St} (h : Reaches allow a s) (t : Nat)
    (hs : next s t none = some s') : Reaches allow a s' :=
  .step t none h (by simp) hs

theorem waiting_all {allow : Nat → Call → Prop} : ∀ {k : Nat}, k ≤ 255 → (∀ t, t < k → allow t .wait) →
    ∃ s, Reaches allow init s ∧ Waiting k s := by
  intro k
  induction k with
  | zero =>
    intro _ _
    exact ⟨init, .refl, ⟨fun t h => absurd h (by omega), fun _ _ => rfl, rfl, rfl, rfl, rfl, rfl, rfl, rfl⟩⟩
  | succ k ih =>
    intro hk ha
    obtain ⟨s, hr, hw⟩ := ih (by omega) fun t ht => ha t (by omega)
    have e0 := hw.high k (Nat.le_refl k)
    have r1 := Reaches.step k (some .wait) hr (fun c e => by cases e; exact ha k (by omega))
      (s' := { s with thr := upd s.thr k .w1 }) (by simp [next, e0])
    have r2 := one r1 k (s' := { s with thr := upd s.thr k .w2, cnt := k + 1 }) (by
      have : (k + 1) % 256 = k + 1 := Nat.mod_eq_of_lt (by omega)
      simp [next, hw.cnt, this]
      funext t; by_cases h : t = k <;> simp [h, upd])
    have r3 := one r2 k (s' := { s with thr := upd s.thr k .w3, cnt := k + 1 }) (by
      simp [next]
      funext t; by_cases h : t = k <;> simp [h, upd])
    refine ⟨_, r3, ⟨fun t ht => ?_, fun t ht => ?_, rfl, hw.lk, hw.flag, hw.woke, hw.early, hw.released, hw.done⟩⟩
    · by_cases e : t = k
      · subst e; simp
      · simp only [upd_ne _ _ e]; exact hw.low t (by omega)
    · simp only [upd_ne _ _ (show t ≠ k by omega)]; exact hw.high t (by omega)

/-- `n` threads waited, thread `n` is in the loop of `notify` at line 51, the first `j` waiters have passed. -/
structure Passing (n j : Nat) (s : CondVar.St) : Prop where
  gone : ∀ t, t < j → s.thr t = .idle
  wait : ∀ t, j ≤ t → t < n → s.thr t = .w3
  notifier : s.thr n = .n4 n 0
  high : ∀ t, n < t → s.thr t = .idle
  cnt : s.cnt = n - j
  lk : s.lk = false
  flag : s.flag = false
  woke : s.woke = j
  done : s.done = 0

theorem upd_upd {f : Nat → PC} {t : Nat} {a b : PC} : upd (upd f t a) t b = upd f t b := by
  funext u; by_cases h : u = t <;> simp [h, upd]

theorem passing_start {allow : Nat → Call → Prop} {n : Nat} (h1 : 1 ≤ n) (hn : n ≤ 255)
    (ha : ∀ t, t < n → allow t .wait) (hb : allow n .notify) : ∃ s, Reaches allow init s ∧ Passing n 0 s := by
  obtain ⟨s, hr, hw⟩ := waiting_all hn ha
  have e0 := hw.high n (Nat.le_refl n)
  have r1 := Reaches.step n (some .notify) hr (fun c e => by cases e; exact hb)
    (s' := { s with thr := upd s.thr n .n1 }) (by simp [next, e0])
  have r2 := one r1 n (s' := { s with thr := upd s.thr n (.n2 n 0) }) (by
    simp only [next, upd_self, upd_upd, hw.cnt, hw.woke]
    rw [if_neg (by omega)])
  have r3 := one r2 n (s' := { s with thr := upd s.thr n (.n3 n 0), lk := false, released := true }) (by
    simp [next, upd_upd])
  have r4 := one r3 n
    (s' := { s with thr := upd s.thr n (.n4 n 0), lk := false, released := true, flag := false }) (by
    simp [next, upd_upd])
  refine ⟨_, r4, ⟨fun t h => absurd h (by omega), fun t _ h => ?_, by simp, fun t h => ?_, ?_, rfl, rfl, hw.woke,
    hw.done⟩⟩
  · simp only [upd_ne _ _ (show t ≠ n by omega)]; exact hw.low t h
  · simp only [upd_ne _ _ (show t ≠ n by omega)]; exact hw.high t (by omega)
  · simpa using hw.cnt

theorem passing_next {allow : Nat → Call → Prop} {n j : Nat} (hn : n ≤ 255) (hj : j < n) {s : CondVar.St}
    (hr : Reaches allow init s) (h : Passing n j s) : ∃ s', Reaches allow init s' ∧ Passing n (j + 1) s' := by
  have e := h.wait j (Nat.le_refl j) hj
  have r1 := one hr j (s' := { s with thr := upd s.thr j .w4, lk := true }) (by simp [next, e, h.lk])
  have r2 := one r1 j (s' := { s with thr := upd s.thr j .w5, lk := true, flag := true }) (by simp [next, upd_upd])
  have r3 := one r2 j (s' := { s with thr := upd s.thr j .w6, lk := false, flag := true }) (by simp [next, upd_upd])
  have r4 := one r3 j (s' := { s with thr := upd s.thr j .w7, lk := false, flag := false }) (by simp [next, upd_upd])
  have hm : (s.cnt + 255) % 256 = n - (j + 1) := by
    rw [h.cnt, show n - j + 255 = n - (j + 1) + 256 by omega, Nat.add_mod_right, Nat.mod_eq_of_lt (by omega)]
  have r5 := one r4 j (s' := { s with thr := upd s.thr j .idle, lk := false, flag := false, cnt := n - (j + 1),
                                      woke := s.woke + 1 }) (by simp [next, upd_upd, hm])
  refine ⟨_, r5, ⟨fun t ht => ?_, fun t h1 h2 => ?_, ?_, fun t ht => ?_, rfl, rfl, rfl, ?_, h.done⟩⟩
  · by_cases et : t = j
    · subst et; simp
    · simp only [upd_ne _ _ et]; exact h.gone t (by omega)
  · simp only [upd_ne _ _ (show t ≠ j by omega)]; exact h.wait t (by omega) h2
  · simp only [upd_ne _ _ (show n ≠ j by omega)]; exact h.notifier
  · simp only [upd_ne _ _ (show t ≠ j by omega)]; exact h.high t ht
  · show s.woke + 1 = j + 1
    rw [h.woke]

theorem passing_all {allow : Nat → Call → Prop} {n : Nat} (h1 : 1 ≤ n) (hn : n ≤ 255)
    (ha : ∀ t, t < n → allow t .wait) (hb : allow n .notify) : ∀ {j : Nat}, j ≤ n →
    ∃ s, Reaches allow init s ∧ Passing n j s := by
  intro j
  induction j with
  | zero => intro _; exact passing_start h1 hn ha hb
  | succ j ih =>
    intro hj
    obtain ⟨s, hr, hp⟩ := ih (by omega)
    exact passing_next hn (by omega) hr hp

/-- One waiter `a`, one notifier `b`: the states between the call of `notify` and the end. -/
def Duo : PC → PC → Nat → Bool → Bool → Prop
  | .w2, .n1, c, lk, fl | .w3, .n1, c, lk, fl => c = 1 ∧ lk = true ∧ fl = true
  | .w2, .n2 k _, c, lk, fl | .w3, .n2 k _, c, lk, fl => k = 1 ∧ c = 1 ∧ lk = true ∧ fl = true
  | .w2, .n3 k _, c, lk, fl | .w3, .n3 k _, c, lk, fl => k = 1 ∧ c = 1 ∧ lk = false ∧ fl = true
  | .w2, .n4 k _, c, lk, fl | .w3, .n4 k _, c, lk, fl => k = 1 ∧ c = 1 ∧ lk = false ∧ fl = false
  | .w4, .n3 k _, c, lk, _ | .w5, .n3 k _, c, lk, _ => k = 1 ∧ c = 1 ∧ lk = true
  | .w4, .n4 k _, c, lk, _ | .w5, .n4 k _, c, lk, _ => k = 1 ∧ c = 1 ∧ lk = true
  | .w6, .n3 k _, c, lk, _ | .w6, .n4 k _, c, lk, _ => k = 1 ∧ c = 1 ∧ lk = false
  | .w7, .n3 k _, c, lk, fl | .w7, .n4 k _, c, lk, fl => k = 1 ∧ c = 1 ∧ lk = false ∧ fl = false
  | .idle, .n3 k _, c, lk, fl | .idle, .n4 k _, c, lk, fl => k = 1 ∧ c = 0 ∧ lk = false ∧ fl = false
  | .idle, .n5 _, c, lk, fl | .idle, .n6 _, c, lk, fl => c = 0 ∧ lk = false ∧ fl = false
  | .idle, .n7 _, c, lk, fl => c = 0 ∧ lk = true ∧ fl = false
  | .idle, .idle, c, lk, fl => c = 0 ∧ lk = true ∧ fl = true
  | _, _, _, _, _ => False

/-- How much is left to do. -/
def rank : PC → Nat
  | .w1 => 8 | .w2 => 7 | .w3 => 6 | .w4 => 5 | .w5 => 4 | .w6 => 3 | .w7 => 2
  | .n1 => 8 | .n2 _ _ => 7 | .n3 _ _ => 6 | .n4 _ _ => 5 | .n5 _ => 4 | .n6 _ => 3 | .n7 _ => 2
  | _ => 0

structure DuoSt (a b w₀ d₀ : Nat) (s : CondVar.St) : Prop where
  ne : a ≠ b
  duo : Duo (s.thr a) (s.thr b) s.cnt s.lk s.flag
  others : ∀ t, t ≠ a → t ≠ b → s.thr t = .idle
  woke : s.woke = if s.thr a = .idle then w₀ + 1 else w₀
  done : s.done = if s.thr b = .idle then d₀ + 1 else d₀

theorem duo_step {a b w₀ d₀ t : Nat} {s s' : CondVar.St} (h : DuoSt a b w₀ d₀ s) (hs : next s t none = some s') :
    DuoSt a b w₀ d₀ s' ∧ (s' = s ∨ rank (s'.thr a) + rank (s'.thr b) < rank (s.thr a) + rank (s.thr b)) := by
  have hne := h.ne
  have hne' : b ≠ a := fun e => hne e.symm
  by_cases hta : t = a
  · subst hta
    have hd := h.duo
    have hw := h.woke
    have hdn := h.done
    have mk : ∀ {s1 : CondVar.St} {p : PC}, s1.thr = upd s.thr t p → Duo p (s.thr b) s1.cnt s1.lk s1.flag →
        (s1.woke = if p = .idle then w₀ + 1 else w₀) → s1.done = s.done → rank p < rank (s.thr t) →
        DuoSt t b w₀ d₀ s1 ∧ (s1 = s ∨ rank (s1.thr t) + rank (s1.thr b) < rank (s.thr t) + rank (s.thr b)) := by
      intro s1 p e1 e2 e3 e4 e5
      refine ⟨⟨hne, by rw [e1]; simpa [upd_ne _ _ hne'] using e2, ?_, by rw [e1]; simpa using e3,
        by rw [e1, e4]; simpa [upd_ne _ _ hne'] using hdn⟩, .inr ?_⟩
      · intro u h1 h2; rw [e1, upd_ne _ _ h1]; exact h.others u h1 h2
      · rw [e1]; simp only [upd_self, upd_ne _ _ hne']; omega
    have hda := h.duo
    cases ha : s.thr t <;> cases hb : s.thr b <;> rw [ha, hb] at hda <;> simp only [Duo] at hda
    all_goals
      rw [ha] at hw mk
      rw [hb] at mk
      simp [next, ha, hda] at hs
    all_goals
      subst hs
      refine mk rfl ?_ ?_ rfl ?_ <;> simp [Duo, rank, hda] <;> simpa using hw
  · by_cases htb : t = b
    · subst htb
      have hd := h.duo
      have hw := h.woke
      have hdn := h.done
      have mk : ∀ {s1 : CondVar.St} {p : PC}, s1.thr = upd s.thr t p → Duo (s.thr a) p s1.cnt s1.lk s1.flag →
          s1.woke = s.woke → (s1.done = if p = .idle then d₀ + 1 else d₀) → rank p < rank (s.thr t) →
          DuoSt a t w₀ d₀ s1 ∧ (s1 = s ∨ rank (s1.thr a) + rank (s1.thr t) < rank (s.thr a) + rank (s.thr t)) := by
        intro s1 p e1 e2 e3 e4 e5
        refine ⟨⟨hne, by rw [e1]; simpa [upd_ne _ _ hne] using e2, ?_,
          by rw [e1, e3]; simpa [upd_ne _ _ hne] using hw, by rw [e1]; simpa using e4⟩, .inr ?_⟩
        · intro u h1 h2; rw [e1, upd_ne _ _ h2]; exact h.others u h1 h2
        · rw [e1]; simp only [upd_self, upd_ne _ _ hne]; omega
      have hda := h.duo
      cases ha : s.thr a <;> cases hb : s.thr t <;> rw [ha, hb] at hda <;> simp only [Duo] at hda
      all_goals
        rw [hb] at hdn mk
        rw [ha] at mk
        simp [next, hb, hda] at hs
      all_goals
        subst hs
        first
        | exact ⟨h, .inl rfl⟩
        | (refine mk rfl ?_ rfl ?_ ?_ <;> simp [Duo, rank, hda] <;> simpa using hdn)
    · have := h.others t hta htb
      simp [next, this] at hs

theorem duo_progress {a b w₀ d₀ : Nat} {s : CondVar.St} (h : DuoSt a b w₀ d₀ s)
    (hn : ¬ (s.thr a = .idle ∧ s.thr b = .idle)) :
    ∃ t s', (t = a ∨ t = b) ∧ next s t none = some s' ∧
      rank (s'.thr a) + rank (s'.thr b) < rank (s.thr a) + rank (s.thr b) := by
  have hne := h.ne
  have hne' : b ≠ a := fun e => hne e.symm
  have hda := h.duo
  cases ha : s.thr a <;> cases hb : s.thr b <;> rw [ha, hb] at hda <;> simp only [Duo] at hda
  case idle.idle => exact absurd ⟨ha, hb⟩ hn
  case w3.n1 => exact ⟨b, _, .inr rfl, by simp [next, hb, hda]; rfl, by simp [rank, ha, hb, upd_ne _ _ hne]⟩
  case w3.n2 => exact ⟨b, _, .inr rfl, by simp [next, hb, hda]; rfl, by simp [rank, ha, hb, upd_ne _ _ hne]⟩
  case idle.n3 => exact ⟨b, _, .inr rfl, by simp [next, hb, hda]; rfl, by simp [rank, ha, hb, upd_ne _ _ hne]⟩
  case idle.n4 => exact ⟨b, _, .inr rfl, by simp [next, hb, hda]; rfl, by simp [rank, ha, hb, upd_ne _ _ hne]⟩
  case idle.n5 => exact ⟨b, _, .inr rfl, by simp [next, hb, hda]; rfl, by simp [rank, ha, hb, upd_ne _ _ hne]⟩
  case idle.n6 => exact ⟨b, _, .inr rfl, by simp [next, hb, hda]; rfl, by simp [rank, ha, hb, upd_ne _ _ hne]⟩
  case idle.n7 => exact ⟨b, _, .inr rfl, by simp [next, hb, hda]; rfl, by simp [rank, ha, hb, upd_ne _ _ hne]⟩
  all_goals exact ⟨a, _, .inl rfl, by simp [next, ha, hda]; rfl, by simp [rank, ha, hb, upd_ne _ _ hne']⟩

theorem Reaches.witness {allow : Nat → Call → Prop} (l : List (Nat × Option Call)) (f : CondVar.St → Bool)
    (ha : ∀ p ∈ l, ∀ k, p.2 = some k → allow p.1 k) (h : (CondVar.play init l).any f = true) :
    ∃ s, Reaches allow init s ∧ f s = true := by
  cases e : CondVar.play init l with
  | none => rw [e] at h; simp at h
  | some s => rw [e] at h; exact ⟨s, Reaches.play .refl ha e, by simpa using h⟩

end CondVarLemmas
open CondVarLemmas

/-- C41 (partial: at most 255 threads, `tryWait` not used): as long as no `notify` has unlocked the lock, no wait returns —
every thread that called `wait` is still in it — and no `notify` that found a waiter has returned. -/
theorem C41_blocked_partial {n : Nat} (hn : n ≤ 255) {s : CondVar.St} (h : Reaches (waitNotify n) init s)
    (hr : s.released = false) : s.woke = 0 ∧ s.early = 0 ∧ s.done = 0 ∧ s.lk = true ∧
      s.cnt = (List.range n).countP (fun t => decide (s.thr t = .w2 ∨ s.thr t = .w3)) := by
  have hi := reaches_inv hn h
  obtain ⟨b1, b2, b3, b4⟩ := hi.blocked hr
  refine ⟨b2, hi.early, b3, b1, hi.count.trans ?_⟩
  apply List.countP_congr
  intro t _
  have := b4 t
  cases e : s.thr t <;> rw [e] at this <;> simp [through] at this <;> simp [counted]

/-- C41 (partial: at most 255 threads, `tryWait` not used): a `notify` that found a waiter and leaves its loop has let at least
one wait return since it looked: `w`, the number of waits that had returned when it read the counter, is exceeded. -/
theorem C41_notify_wakes_partial {n : Nat} (hn : n ≤ 255) {s : CondVar.St} (h : Reaches (waitNotify n) init s) {t w : Nat}
    (hp : s.thr t = .n5 w ∨ s.thr t = .n6 w ∨ s.thr t = .n7 w) : w < s.woke :=
  (reaches_inv hn h).passed t w hp

/-- C41 (partial: at most 255 threads, `tryWait` not used): no wait returns without having passed the lock. -/
theorem C41_no_early_return_partial {n : Nat} (hn : n ≤ 255) {s : CondVar.St} (h : Reaches (waitNotify n) init s) :
    s.early = 0 :=
  (reaches_inv hn h).early

/-- Three waiters and a notifier that has just left its loop: one wait returned. -/
example : ∃ s, Reaches (waitNotify 4) init s ∧ (s.thr 3, s.thr 0, s.thr 1, s.woke) = (.n5 0, .idle, .w3, 1) := by
  obtain ⟨s, hr, hp⟩ := passing_all (allow := waitNotify 4) (n := 3) (by omega) (by omega)
    (fun t ht => ⟨by omega, by simp⟩) ⟨by omega, by simp⟩ (j := 1) (by omega)
  refine ⟨_, one hr 3 (s' := { s with thr := upd s.thr 3 (.n5 0) }) (by simp [next, hp.notifier, hp.cnt]), ?_⟩
  simp [upd_ne _ _ (show (0 : Nat) ≠ 3 by omega), upd_ne _ _ (show (1 : Nat) ≠ 3 by omega), hp.gone 0 (by omega),
    hp.wait 1 (by omega) (by omega), hp.woke]

/-- C41: `notify` without waiters returns at once and changes nothing. -/
theorem C41_notify_without_waiters {s s' : CondVar.St} {t : Nat} (ht : s.thr t = .n1) (hc : s.cnt = 0)
    (hs : next s t none = some s') :
    s'.thr t = .idle ∧ (∀ u, u ≠ t → s'.thr u = s.thr u) ∧ s'.cnt = s.cnt ∧ s'.lk = s.lk ∧ s'.flag = s.flag ∧
      s'.woke = s.woke := by
  simp [next, ht, hc] at hs
  subst hs
  exact ⟨by simp, fun u hu => by simp [upd_ne _ _ hu], hc.symm, rfl, rfl, rfl⟩

example : ∃ s, Reaches (waitNotify 1) init s ∧ s.thr 0 = .n1 ∧ s.cnt = 0 :=
  ⟨_, .step 0 (some .notify) .refl (fun c e => by cases e; exact ⟨by omega, by simp⟩) rfl, by simp, rfl⟩

/-- C41 (partial: one waiter, one notifier): thread `a` is waiting, thread `b` calls `notify`, nobody else is active.  In every
interleaving: no step undoes progress, some thread can always make progress until both have returned — so the wait and the
notification both complete whenever both threads keep running — and at the end exactly one wait and one notification
have returned and the condition variable is as new. -/
theorem C41_one_waiter_partial {a b : Nat} (hab : a ≠ b) {s : CondVar.St} (ha : s.thr a = .w2 ∨ s.thr a = .w3)
    (hb : s.thr b = .n1) (ho : ∀ t, t ≠ a → t ≠ b → s.thr t = .idle) (hc : s.cnt = 1) (hl : s.lk = true)
    (hf : s.flag = true) {s' : CondVar.St} (h : Reaches (fun _ _ => False) s s') :
    (∀ t s'', next s' t none = some s'' → s'' = s' ∨
      rank (s''.thr a) + rank (s''.thr b) < rank (s'.thr a) + rank (s'.thr b)) ∧
    ((s'.thr a = .idle ∧ s'.thr b = .idle ∧ s'.cnt = 0 ∧ s'.lk = true ∧ s'.flag = true ∧ s'.woke = s.woke + 1 ∧
        s'.done = s.done + 1) ∨
     ∃ t s'', (t = a ∨ t = b) ∧ next s' t none = some s'' ∧
      rank (s''.thr a) + rank (s''.thr b) < rank (s'.thr a) + rank (s'.thr b)) := by
  have hd : DuoSt a b s.woke s.done s' := by
    induction h with
    | refl =>
      refine ⟨hab, ?_, ho, ?_, ?_⟩
      · rcases ha with ha | ha <;> rw [ha, hb] <;> exact ⟨hc, hl, hf⟩
      · rcases ha with ha | ha <;> rw [ha] <;> rfl
      · rw [hb]; rfl
    | step t c _ hal hs ih =>
      cases c with
      | none => exact (duo_step ih hs).1
      | some c => exact (hal c rfl).elim
  refine ⟨fun t s'' hs => (duo_step hd hs).2, ?_⟩
  by_cases hend : s'.thr a = .idle ∧ s'.thr b = .idle
  · have hduo := hd.duo
    rw [hend.1, hend.2] at hduo
    have hw := hd.woke
    have hdn := hd.done
    rw [hend.1] at hw
    rw [hend.2] at hdn
    exact .inl ⟨hend.1, hend.2, hduo.1, hduo.2.1, hduo.2.2, hw, hdn⟩
  · exact .inr (duo_progress hd hend)

/-- The situation arises. -/
example : ∃ s, Reaches (waitNotify 2) init s ∧ s.thr 0 = .w3 ∧ s.thr 1 = .n1 ∧ s.cnt = 1 ∧ s.lk = true ∧ s.flag = true := by
  refine ⟨_, Reaches.play (l := [(0, some .wait), (0, none), (0, none), (1, some .notify)]) .refl ?_ rfl, ?_⟩
  · intro p hp k e
    simp at hp
    rcases hp with rfl | rfl | rfl <;> cases e <;> exact ⟨by omega, by simp⟩
  · decide

/-- C41 violated: with two or more waiters `notify` may never return: if all waiters pass the lock before the notifier looks
at the counter again, it waits for ever for a value that was skipped.  In the state reached, no thread can change anything
without a new call. -/
theorem C41_notify_hangs {n : Nat} (h2 : 2 ≤ n) (hn : n ≤ 254) :
    ∃ s, Reaches (waitNotify (n + 1)) init s ∧ s.woke = n ∧ s.thr n = .n4 n 0 ∧
      ∀ s', Reaches (fun _ _ => False) s s' → s' = s := by
  obtain ⟨s, hr, hp⟩ := passing_all (allow := waitNotify (n + 1)) (n := n) (by omega) (by omega)
    (fun t ht => ⟨by omega, by simp⟩) ⟨by omega, by simp⟩ (j := n) (Nat.le_refl n)
  refine ⟨s, hr, hp.woke, hp.notifier, fun s' h => ?_⟩
  induction h with
  | refl => rfl
  | step t c _ hal hs ih =>
    subst ih
    cases c with
    | some c => exact (hal c rfl).elim
    | none =>
      rcases Nat.lt_trichotomy t n with ht | ht | ht
      · simp [next, hp.gone t ht] at hs
      · subst ht
        have hc := hp.cnt
        simp only [next, hp.notifier] at hs
        rw [if_neg (by omega)] at hs
        exact (Option.some.inj hs).symm
      · simp [next, hp.high t ht] at hs

/-- C41 violated: one `notify` may let two waiters continue and leave the lock free; a third thread's `wait` then returns
although nobody notified it: `tryLock` (line 52) believes it holds the lock because the second waiter set the shared flag. -/
theorem C41_lock_lost :
    ∃ s, Reaches (waitNotify 4) init s ∧ [s.woke, s.done, s.early] = [3, 1, 0] ∧ s.lk = false ∧ s.thr 2 = .idle := by
  obtain ⟨s, hr, hs⟩ := Reaches.witness (allow := waitNotify 4)
    [(0, some .wait), (0, none), (0, none), (1, some .wait), (1, none), (1, none),
      (3, some .notify), (3, none), (3, none), (3, none), (0, none), (0, none), (0, none), (0, none), (0, none),
      (3, none), (1, none), (1, none), (3, none), (1, none), (1, none), (1, none),
      (2, some .wait), (2, none), (2, none), (2, none), (2, none), (2, none), (2, none), (2, none)]
    (fun s => decide ([s.woke, s.done, s.early] = [3, 1, 0] ∧ s.lk = false ∧ s.thr 2 = .idle))
    (by
      intro p hp k e
      simp only [List.mem_cons, List.not_mem_nil, or_false] at hp
      repeat' rcases hp with rfl | hp
      all_goals first | (cases e; done) | (cases e; exact ⟨by omega, by simp⟩))
    (by decide +kernel)
  exact ⟨s, hr, of_decide_eq_true hs⟩

/-- C41 violated: whenever `notify` tests `locked` while another waiter has it set, `notify` returns without taking the lock back; once that waiter is through, a thread
that calls `wait` afterwards returns at once, though nobody notified again. -/
theorem C41_lock_not_retaken {s : CondVar.St} {t u v w : Nat} (ht : s.thr t = .n5 w) (hu : s.thr u = .w5) (hf : s.flag = true) (hv : s.thr v = .idle)
    (h0 : 0 < s.cnt) (h1 : s.cnt < 256) :
    ∃ s', play s ([(t, none), (u, none), (u, none), (u, none), (v, some .wait)] ++ List.replicate 7 (v, none)) = some s' ∧
      s'.woke = s.woke + 2 ∧ s'.done = s.done + 1 ∧ s'.lk = false ∧ s'.cnt = s.cnt - 1 ∧ ∀ x, s'.thr x = if x = t ∨ x = u ∨ x = v then .idle else s.thr x := by
  have htu : t ≠ u := by rintro rfl; rw [ht] at hu; cases hu
  have htv : t ≠ v := by rintro rfl; rw [ht] at hv; cases hv
  have huv : u ≠ v := by rintro rfl; rw [hu] at hv; cases hv
  have c1 : ((s.cnt + 255) % 256 + 1) % 256 = s.cnt := by omega
  have c2 : (s.cnt + 255) % 256 = s.cnt - 1 := by omega
  have c3 : ¬ s.cnt = 0 := by omega
  have e : ∀ (f : Nat → PC) x a b, upd (upd f x a) x b = upd f x b := by
    intro f x a b; funext y; by_cases h : y = x <;> simp [upd, h]
  let s' : CondVar.St := { s with
    thr := upd (upd (upd s.thr t .idle) u .idle) v .idle
    cnt := (s.cnt + 255) % 256
    lk := false
    flag := false
    woke := s.woke + 2
    done := s.done + 1 }
  refine ⟨s', ?_, rfl, rfl, rfl, c2, fun x => ?_⟩
  · simp [play, next, ht, hf, hu, hv, htu, htu.symm, htv, htv.symm, huv, huv.symm, upd_ne, e, c1, c3, List.replicate, s']
  · by_cases h1 : x = v
    · subst h1; simp [s']
    · by_cases h2 : x = u
      · subst h2; simp [s', upd_ne _ _ h1]
      · by_cases h3 : x = t
        · subst h3; simp [s', upd_ne _ _ h1, upd_ne _ _ h2]
        · simp [s', upd_ne _ _ h1, upd_ne _ _ h2, upd_ne _ _ h3, h1, h2, h3]

/-- Such a state is reached: two waiters, the first through, the second holding the lock, the notifier about to test. -/
example : ∃ s, Reaches (waitNotify 4) init s ∧ (s.thr 3, s.thr 1, s.flag, s.thr 2, s.cnt) = (.n5 0, .w5, true, .idle, 1) := by
  obtain ⟨s, hr, hs⟩ := Reaches.witness (allow := waitNotify 4)
    [(0, some .wait), (0, none), (0, none), (1, some .wait), (1, none), (1, none),
      (3, some .notify), (3, none), (3, none), (3, none), (0, none), (0, none), (0, none), (0, none), (0, none),
      (3, none), (1, none), (1, none)]
    (fun s => decide ((s.thr 3, s.thr 1, s.flag, s.thr 2, s.cnt) = (.n5 0, .w5, true, .idle, 1)))
    (by
      intro p hp k e
      simp only [List.mem_cons, List.not_mem_nil, or_false] at hp
      repeat' rcases hp with rfl | hp
      all_goals first | (cases e; done) | (cases e; exact ⟨by omega, by simp⟩))
    (by decide +kernel)
  exact ⟨s, hr, of_decide_eq_true hs⟩

/-- C41 violated: `tryWait` on a condition variable nobody has notified succeeds — the flag says that the object's own locker
holds the lock — and frees the lock, so that the next `wait` returns at once. -/
theorem C41_tryWait_frees :
    ∃ s, Reaches (fun _ c => c ≠ .notify) init s ∧ (s.tried, s.woke, s.released) = ([true], 1, false) := by
  refine ⟨_, Reaches.play (l := [(0, some .tryWait), (0, none), (0, none), (0, none), (1, some .wait), (1, none), (1, none),
      (1, none), (1, none), (1, none), (1, none), (1, none)]) .refl ?_ rfl, ?_⟩
  · intro p hp k e
    simp at hp
    rcases hp with rfl | rfl | rfl | rfl <;> cases e <;> simp
  · decide

/-- C41 violated: the counter has eight bits: when 255 threads wait, the wait of one more returns at once. -/
theorem C41_counter_overflow :
    ∃ s, Reaches (fun _ c => c = .wait) init s ∧ s.early = 1 ∧ s.released = false ∧ ∀ t, t < 255 → s.thr t = .w3 := by
  obtain ⟨s, hr, hw⟩ := waiting_all (allow := fun _ c => c = .wait) (k := 255) (by omega) (fun _ _ => rfl)
  have e0 := hw.high 255 (Nat.le_refl _)
  have r1 := Reaches.step 255 (some .wait) hr (fun c e => by cases e; rfl)
    (s' := { s with thr := upd s.thr 255 .w1 }) (by simp [next, e0])
  have r2 := one r1 255 (s' := { s with thr := upd s.thr 255 .w2, cnt := 0 }) (by
    simp [next, hw.cnt, upd_upd])
  have r3 := one r2 255 (s' := { s with thr := upd s.thr 255 .idle, cnt := 0, early := s.early + 1 }) (by
    simp [next, upd_upd])
  refine ⟨_, r3, ?_, hw.released, fun t ht => ?_⟩
  · show s.early + 1 = 1
    rw [hw.early]
  · simp only [upd_ne _ _ (show t ≠ 255 by omega)]; exact hw.low t ht

/-- C41: the exact effect of a `tryWait` that is not interrupted: it succeeds iff the lock is free or the shared `locker` says it
is locked (by whomever), and after a success the lock is free. -/
theorem C41_tryWait_exact {s : CondVar.St} {t : Nat} (ht : s.thr t = .y1) :
    ∃ k, play s (List.replicate k (t, none)) =
      some { s with thr := upd s.thr t .idle, lk := s.lk && !s.flag, flag := false, tried := s.tried ++ [s.flag || !s.lk] } := by
  obtain ⟨cnt, lk, flag, thr, woke, early, rel, done, tried⟩ := s
  simp only at ht
  have e : ∀ (f : Nat → PC) a b, upd (upd f t a) t b = upd f t b := by
    intro f a b; funext u; by_cases h : u = t <;> simp [upd, h]
  cases flag <;> cases lk
  · exact ⟨5, by simp [List.replicate, play, next, ht, e]⟩
  · exact ⟨2, by simp [List.replicate, play, next, ht, e]⟩
  · exact ⟨3, by simp [List.replicate, play, next, ht, e]⟩
  · exact ⟨3, by simp [List.replicate, play, next, ht, e]⟩

/-- On a fresh variable. -/
example : ∃ s, Reaches (fun _ _ => True) init s ∧ s.thr 0 = .y1 ∧ s.lk = true ∧ s.flag = true :=
  ⟨_, .step 0 (some .tryWait) .refl (fun _ _ => trivial) rfl, rfl, rfl, rfl⟩

/-- C41: while `tryWait` has the lock no `wait` passes, and once it has recorded it a notifier returns at once. -/
theorem C41_tryWait_excludes {s : CondVar.St} {t : Nat} (ht : s.thr t = .y2) (hl : s.lk = false) :
    ∃ s₁ s₂, next s t none = some s₁ ∧ (∀ u, s.thr u = .w3 → next s₁ u none = none) ∧ next s₁ t none = some s₂ ∧
      (∀ u, s.thr u = .w3 → next s₂ u none = none) ∧
      ∀ u w, s.thr u = .n5 w → ∃ s₃, next s₂ u none = some s₃ ∧ s₃.thr u = .idle := by
  refine ⟨{ s with thr := upd s.thr t .y3, lk := true }, { s with thr := upd (upd s.thr t .y3) t .y4, lk := true, flag := true },
    by simp [next, ht, hl], fun u hu => ?_, by simp [next], fun u hu => ?_, fun u w hu => ?_⟩
  · have : u ≠ t := by rintro rfl; rw [ht] at hu; cases hu
    simp [next, upd, this, hu]
  · have : u ≠ t := by rintro rfl; rw [ht] at hu; cases hu
    simp [next, upd, this, hu]
  · have : u ≠ t := by rintro rfl; rw [ht] at hu; cases hu
    simp [next, upd, this, hu]

/-- C41: a notifier that finds the lock taken tries again, whatever the flag was: the failed attempt says "not locked". -/
theorem C41_notify_retries {s : CondVar.St} {t w : Nat} (ht : s.thr t = .n6 w) (hl : s.lk = true) :
    ∃ s', play s [(t, none), (t, none)] = some s' ∧ s'.thr t = .n6 w ∧ s'.flag = false ∧ s'.lk = true ∧ s'.done = s.done := by
  refine ⟨{ s with thr := upd (upd s.thr t (.n5 w)) t (.n6 w), flag := false, lk := true },
    by simp [play, next, ht, hl], by simp, rfl, rfl, rfl⟩

example : (play { init with thr := upd init.thr 5 (.n6 3) } [(5, none), (5, none)]).map (fun s => s.thr 5) = some (.n6 3) := by
  decide

namespace Flame
namespace CondVarLemmas
open CondVar Conc
example := C41_notify_hangs (n := 3) (by decide) (by decide)
example := C41_tryWait_excludes (s := { CondVar.init with
  thr := upd (upd CondVar.init.thr 0 .y2) 1 .w3
  lk := false }) (t := 0) rfl rfl

namespace Flame
open CondVar CondVarLemmas
example := (show ∃ s, Reaches (waitNotify 2) init s ∧ s.released = false from
  ⟨_, .step 0 (some .wait) .refl (fun c e => by cases e; exact ⟨by omega, by simp⟩) rfl, rfl⟩).imp fun _ h => C41_blocked_partial (by decide) h.1 h.2
example := (show ∃ s, Reaches (waitNotify 4) init s ∧ s.thr 3 = .n5 0 by
    obtain ⟨s, hr, hp⟩ := passing_all (allow := waitNotify 4) (n := 3) (by omega) (by omega)
      (fun t ht => ⟨by omega, by simp⟩) ⟨by omega, by simp⟩ (j := 1) (by omega)
    exact ⟨_, one hr 3 (s' := { s with thr := upd s.thr 3 (.n5 0) }) (by simp [next, hp.notifier, hp.cnt]), by simp⟩).imp fun _ h =>
  C41_notify_wakes_partial (by decide) h.1 (.inl h.2)
end Flame

end CondVarLemmas
end Flame
end Flame
