import Verif.Life.Object

/-! # C35: `templates::Object` -/

namespace Flame.Life.Object
open Flame.Own

variable {V : Type} {al : Nat → Nat}

structure Inv (al : Nat → Nat) (s : St V) : Prop where
  held : Held (owner s) s.log
  fresh : ∀ r, .made r ∈ s.log → r < s.next
  wf : ∀ i a t m, s.vars i = some ⟨a, some t, m⟩ → ∃ c, m = some c ∧ c.ty = t ∧ c.off = shift a (al t)
  clean : ∀ r, ¬ Orphan (owner s) s.log r

theorem inv_init : Inv al (init : St V) :=
  ⟨Held.init, by simp [init], by simp [init], by simp [Orphan, Live, init]⟩

theorem owner_congr {s s' : St V} {k : Nat} (h : s'.vars k = s.vars k) : owner s' k = owner s k := by
  simp [owner, h]

theorem ne_none {α : Type} {o : Option α} (h : o ≠ none) : ∃ a, o = some a := by
  cases o with
  | none => exact absurd rfl h
  | some a => exact ⟨a, rfl⟩

theorem cases_var {s : St V} (h : Inv al s) {j : Nat} {x : Var V} (hj : s.vars j = some x) :
    (x.cb = none ∧ owner s j = none ∧ contents s j = some none) ∨
    (∃ c t, x.cb = some t ∧ x.mem = some c ∧ c.ty = t ∧ c.off = shift x.addr (al t) ∧ Live c.obj s.log ∧
      at' al x t s.log = some c ∧ owner s j = some c.obj ∧ contents s j = some (some (t, c.val))) := by
  obtain ⟨a, cb, m⟩ := x
  cases cb with
  | none => exact .inl ⟨rfl, by simp [owner, hj], by simp [contents, hj, holds]⟩
  | some t =>
    obtain ⟨c, rfl, h1, h2⟩ := h.wf j a t m hj
    have ho : owner s j = some c.obj := by simp [owner, hj]
    have hl := h.held.ownedLive j _ ho
    exact .inr ⟨c, t, rfl, rfl, h1, h2, hl, by simp [at', h1, h2, hl], ho, by simp [contents, hj, holds]⟩

/-- Bookkeeping of one operation: nothing wrong, nothing forgotten. -/
def Both (own : Nat → Option Nat) (l : List Ev) (own' : Nat → Option Nat) (l' : List Ev) : Prop :=
  Fine own l own' l' ∧ Tidy own l own' l'

theorem Both.trans {a b c : Nat → Option Nat} {l m n : List Ev} (h1 : Both a l b m) (h2 : Both b m c n) :
    Both a l c n := ⟨h1.1.trans h2.1, Tidy.trans h1.1 h1.2 h2.2⟩

theorem Both.congr {own own' own'' : Nat → Option Nat} {l l' : List Ev} (h : Both own l own' l')
    (e : ∀ i, own'' i = own' i) : Both own l own'' l' := ⟨h.1.congr e, h.2.congr e⟩

theorem destroy_ok {s : St V} (h : Inv al s) {i : Nat} {x : Var V} (hx : s.vars i = some x) :
    ∃ log, destroy al x s.log = .ok log ∧ Both (owner s) s.log (upd (owner s) i none) log ∧
      (∀ r, .made r ∈ log → .made r ∈ s.log) := by
  rcases cases_var h hx with ⟨hc, ho, _⟩ | ⟨c, t, hc, _, _, _, _, ha, ho, _⟩
  · have e : ∀ k, upd (owner s) i none k = owner s k := by
      intro k
      by_cases hk : k = i
      · subst hk; simp [ho]
      · exact upd_ne _ _ hk
    exact ⟨s.log, by simp [destroy, hc], Both.congr ⟨Fine.refl, Tidy.refl⟩ e, fun _ h => h⟩
  · exact ⟨.closed c.obj :: s.log, by simp [destroy, hc, ha], fine_close ho, fun r hr => by simpa using hr⟩

theorem contents_one {s s1 : St V} {i : Nat} {o : Option (Option (Nat × V))}
    (hk : ∀ k, k ≠ i → s1.vars k = s.vars k) (hi : (s1.vars i).map holds = o) :
    contents s1 = upd (contents s) i o := by
  funext k
  by_cases h : k = i
  · subst h; simpa [contents] using hi
  · rw [upd_ne _ _ h]; simp [contents, hk k h]

theorem fresh_inv {s : St V} (h : Inv al s) {i : Nat} (hi : s.vars i = none) (addr : Nat) :
    Inv al { s with vars := upd s.vars i (some (fresh addr)) } := by
  have e : owner ({ s with vars := upd s.vars i (some (Object.fresh addr)) } : St V) = owner s := by
    funext k
    by_cases hk : k = i
    · subst hk; simp [owner, Object.fresh, hi]
    · exact owner_congr (upd_ne _ _ hk)
  refine ⟨by rw [e]; exact h.held, h.fresh, ?_, by rw [e]; exact h.clean⟩
  intro q a t m hq
  by_cases hqi : q = i
  · subst hqi; simp [Object.fresh] at hq
  · exact h.wf q a t m (by simpa [upd_ne _ _ hqi] using hq)

theorem contents_fresh {s : St V} {i addr : Nat} :
    contents ({ s with vars := upd s.vars i (some (fresh addr)) } : St V) = upd (contents s) i (some none) :=
  contents_one (fun k hk => upd_ne _ _ hk) (by simp [holds, fresh])

theorem assignValue_ok {s : St V} (h : Inv al s) {i : Nat} (hi : s.vars i ≠ none) (t : Nat) (v : V) :
    ∃ s', assignValue al s i t v = .ok s' ∧ Inv al s' ∧ contents s' = upd (contents s) i (some (some (t, v))) := by
  obtain ⟨x, hx⟩ := ne_none hi
  obtain ⟨log, h1, h2, h4⟩ := destroy_ok h hx
  have f1 : .made s.next ∉ log := fun hm => Nat.lt_irrefl _ (h.fresh _ (h4 _ hm))
  have f2 : .closed s.next ∉ log := fun hc => f1 (closed_made (h2.1 h.held).1.proper hc)
  have hm := fine_make (own := upd (owner s) i none) (i := i) (by simp) f1 f2
  have e : ∀ q, owner (place al s i x.addr t v log) q = upd (upd (owner s) i none) i (some s.next) q := by
    intro q
    by_cases hq : q = i
    · subst hq; simp [owner, place]
    · rw [upd_ne _ _ hq, upd_ne _ _ hq]; exact owner_congr (upd_ne _ _ hq)
  have hb := (h2.trans hm).congr e
  refine ⟨place al s i x.addr t v log, by simp only [assignValue, hx, h1],
    ⟨(hb.1 h.held).1, ?_, ?_, fun r hr => h.clean r (hb.2 h.held r hr)⟩, ?_⟩
  · intro r hr
    rcases List.mem_cons.mp hr with h' | h'
    · injection h' with h'; subst h'; exact Nat.lt_succ_self _
    · exact Nat.lt_succ_of_lt (h.fresh r (h4 r h'))
  · intro q a t' m hq
    by_cases hqi : q = i
    · subst hqi
      simp only [place, upd_self, Option.some.injEq, Var.mk.injEq] at hq
      obtain ⟨rfl, rfl, rfl⟩ := hq
      exact ⟨_, rfl, rfl, rfl⟩
    · exact h.wf q a t' m (by simpa [place, upd_ne _ _ hqi] using hq)
  · exact contents_one (fun q hq => upd_ne _ _ hq) (by simp [place, holds])

/-- Handing an owned object over from `j` to `i`. -/
theorem both_give {own : Nat → Option Nat} {l : List Ev} {i j : Nat} (hij : i ≠ j) (hi : own i = none) :
    Both own l (upd (upd own i (own j)) j none) l := by
  have get : ∀ k r, upd (upd own i (own j)) j none k = some r →
      k ≠ j ∧ ((k = i ∧ own j = some r) ∨ (k ≠ i ∧ own k = some r)) := by
    intro k r hk
    by_cases hkj : k = j
    · subst hkj; simp at hk
    · rw [upd_ne _ _ hkj] at hk
      by_cases hki : k = i
      · subst hki; simp at hk; exact ⟨hkj, .inl ⟨rfl, hk⟩⟩
      · rw [upd_ne _ _ hki] at hk; exact ⟨hkj, .inr ⟨hki, hk⟩⟩
  constructor
  · intro h
    refine ⟨⟨h.proper, ?_, ?_⟩, fun r hr => ⟨hr.1, fun k hk => ?_⟩⟩
    · intro k r hk
      rcases (get k r hk).2 with ⟨_, h'⟩ | ⟨_, h'⟩ <;> exact h.ownedLive _ _ h'
    · intro a b r ha hb
      obtain ⟨ha', ha⟩ := get a r ha
      obtain ⟨hb', hb⟩ := get b r hb
      rcases ha with ⟨h1, h2⟩ | ⟨h1, h2⟩ <;> rcases hb with ⟨h3, h4⟩ | ⟨h3, h4⟩
      · omega
      · exact absurd (h.unique b j r h4 h2) hb'
      · exact absurd (h.unique a j r h2 h4) ha'
      · exact h.unique a b r h2 h4
    · rcases (get k r hk).2 with ⟨_, h'⟩ | ⟨_, h'⟩ <;> exact hr.2 _ h'
  · intro h r hr
    refine ⟨hr.1, fun k hk => ?_⟩
    by_cases hkj : k = j
    · subst hkj
      exact hr.2 i (by rw [upd_ne _ _ hij]; simp [hk])
    · by_cases hki : k = i
      · subst hki; rw [hi] at hk; cases hk
      · exact hr.2 k (by rw [upd_ne _ _ hkj, upd_ne _ _ hki]; exact hk)

theorem assignMove_ok {s : St V} (h : Inv al s) {i j : Nat} {x : Var V} (hx : s.vars i = some x) (hj : s.vars j ≠ none)
    (hf : fits al s x.addr j) :
    ∃ s', assignMove al s i j = .ok s' ∧ Inv al s' ∧
      contents s' = upd (upd (contents s) i (contents s j)) j (some none) := by
  obtain ⟨y, hy⟩ := ne_none hj
  obtain ⟨log, h1, h2, h4⟩ := destroy_ok h hx
  refine ⟨transfer s i j x y log, by simp only [assignMove, hx, hy, h1], ?_, ?_⟩
  · have hfr : ∀ r, .made r ∈ (transfer s i j x y log).log → r < (transfer s i j x y log).next := by
      intro r hr
      unfold transfer at hr ⊢
      split at hr
      · rw [if_pos (by assumption)]; exact h.fresh r (h4 r hr)
      · rw [if_neg (by assumption)]; exact h.fresh r (h4 r hr)
    by_cases hij : i = j
    · subst hij
      have ht : transfer s i i x y log = { s with vars := upd s.vars i (some ⟨x.addr, none, x.mem⟩), log := log } := by
        simp [transfer]
      rw [ht] at hfr ⊢
      have e : ∀ q, owner ({ s with vars := upd s.vars i (some ⟨x.addr, none, x.mem⟩), log := log } : St V) q
          = upd (owner s) i none q := by
        intro q
        by_cases hq : q = i
        · subst hq; simp [owner]
        · rw [upd_ne _ _ hq]; exact owner_congr (upd_ne _ _ hq)
      have hb := h2.congr e
      refine ⟨(hb.1 h.held).1, hfr, ?_, fun r hr => h.clean r (hb.2 h.held r hr)⟩
      intro q a t m hq
      by_cases hqi : q = i
      · subst hqi; simp at hq
      · exact h.wf q a t m (by simpa [upd_ne _ _ hqi] using hq)
    · have hji : j ≠ i := fun e => hij e.symm
      have ht : transfer s i j x y log = { s with vars := upd (upd s.vars i (some ⟨x.addr, y.cb, y.mem⟩)) j (some ⟨y.addr, none, y.mem⟩), log := log } := by
        simp [transfer, hij]
      rw [ht] at hfr ⊢
      have oj : owner s j = (match y.cb, y.mem with | some _, some c => some c.obj | _, _ => none) := by
        obtain ⟨b, cb, m⟩ := y
        cases cb <;> cases m <;> simp [owner, hy]
      have e : ∀ q, owner ({ s with vars := upd (upd s.vars i (some ⟨x.addr, y.cb, y.mem⟩)) j (some ⟨y.addr, none, y.mem⟩), log := log } : St V) q
          = upd (upd (upd (owner s) i none) i (upd (owner s) i none j)) j none q := by
        intro q
        by_cases hqj : q = j
        · subst hqj; simp [owner]
        · rw [upd_ne _ _ hqj]
          by_cases hqi : q = i
          · subst hqi
            rw [upd_self, upd_ne _ _ hji, oj]
            obtain ⟨b, cb, m⟩ := y
            cases cb <;> cases m <;> simp [owner, upd_ne _ _ hqj]
          · rw [upd_ne _ _ hqi, upd_ne _ _ hqi]
            refine owner_congr ?_
            simp [upd_ne _ _ hqj, upd_ne _ _ hqi]
      have hb := (h2.trans (both_give (own := upd (owner s) i none) (l := log) hij (by simp))).congr e
      refine ⟨(hb.1 h.held).1, hfr, ?_, fun r hr => h.clean r (hb.2 h.held r hr)⟩
      intro q a t m hq
      by_cases hqj : q = j
      · subst hqj; simp at hq
      · simp only [upd_ne _ _ hqj] at hq
        by_cases hqi : q = i
        · subst hqi
          simp only [upd_self, Option.some.injEq, Var.mk.injEq] at hq
          obtain ⟨rfl, hcb, rfl⟩ := hq
          obtain ⟨b, cb, m⟩ := y
          simp only at hcb
          subst hcb
          obtain ⟨c, e1, e2, e3⟩ := h.wf j b t m hy
          simp only [fits, hy] at hf
          exact ⟨c, e1, e2, by rw [e3, hf]⟩
        · exact h.wf q a t m (by simpa [upd_ne _ _ hqi] using hq)
  · have cj : contents s j = some (holds y) := by simp [contents, hy]
    rw [cj]
    funext q
    by_cases hij : i = j
    · subst hij
      by_cases hq : q = i
      · subst hq; simp [contents, transfer, holds]
      · simp [contents, transfer, upd_ne _ _ hq]
    · by_cases hqj : q = j
      · subst hqj; simp [contents, transfer, hij, holds]
      · rw [upd_ne _ _ hqj]
        by_cases hqi : q = i
        · subst hqi
          obtain ⟨b, cb, m⟩ := y
          cases cb <;> cases m <;> simp [contents, transfer, hij, holds, upd_ne _ _ hqj]
        · simp [contents, transfer, hij, upd_ne _ _ hqj, upd_ne _ _ hqi]

theorem upd_upd {a : Abs V} {i : Nat} {o p : Option (Option (Nat × V))} : upd (upd a i o) i p = upd a i p := by
  funext k
  by_cases hk : k = i
  · subst hk; simp
  · rw [upd_ne _ _ hk, upd_ne _ _ hk, upd_ne _ _ hk]

theorem step_ok {s : St V} (h : Inv al s) {o : Op V} (hp : safe al s o) :
    ∃ s', step al s o = .ok s' ∧ Inv al s' ∧ contents s' = spec (contents s) o := by
  obtain ⟨hd, hp⟩ := hp
  cases o with
  | declare i addr =>
    simp only [declared] at hd
    exact ⟨_, by simp only [step, hd], fresh_inv h hd addr, contents_fresh⟩
  | ctor i addr t v =>
    simp only [declared] at hd
    obtain ⟨s', a1, a2, a3⟩ := assignValue_ok (fresh_inv h hd addr) (i := i) (by simp) t v
    refine ⟨s', by simp only [step, hd]; exact a1, a2, ?_⟩
    rw [a3, contents_fresh, upd_upd]; rfl
  | moveCtor i addr j =>
    obtain ⟨hi, hj⟩ := hd
    obtain ⟨y, hy⟩ := ne_none hj
    have hji : j ≠ i := by intro e; subst e; rw [hi] at hy; cases hy
    have hv : ({ s with vars := upd s.vars i (some (Object.fresh addr)) } : St V).vars j = s.vars j := upd_ne _ _ hji
    obtain ⟨s', a1, a2, a3⟩ := assignMove_ok (fresh_inv h hi addr) (i := i) (j := j) (x := Object.fresh addr) (by simp)
      (by rw [hv]; exact hj) (by unfold fits; rw [hv]; exact hp)
    refine ⟨s', by simp only [step, hi, hy]; exact a1, a2, ?_⟩
    rw [a3, contents_fresh, upd_ne _ _ hji, upd_upd]; rfl
  | set i t v =>
    simp only [declared] at hd
    obtain ⟨s', a1, a2, a3⟩ := assignValue_ok h hd t v
    exact ⟨s', a1, a2, a3⟩
  | moveAssign i j =>
    obtain ⟨hi, hj⟩ := hd
    obtain ⟨x, hx⟩ := ne_none hi
    simp only [hx] at hp
    obtain ⟨s', a1, a2, a3⟩ := assignMove_ok h hx hj hp
    exact ⟨s', a1, a2, a3⟩
  | read i t =>
    obtain ⟨x, hx, ht⟩ := hd
    rcases cases_var h hx with ⟨hc, _⟩ | ⟨c, t', hc, _, _, _, _, ha, ho, _⟩
    · rw [hc] at ht; cases ht
    · rw [hc] at ht
      injection ht with ht
      subst ht
      have hu := fine_use (l := s.log) ho
      refine ⟨{ s with log := .used c.obj :: s.log }, by simp only [step, get, hx, ha], ?_, rfl⟩
      exact ⟨(hu.1 h.held).1, fun q hq => h.fresh q (by simpa using hq), h.wf, fun r hr => h.clean r (hu.2 h.held r hr)⟩
  | drop i =>
    simp only [declared] at hd
    obtain ⟨x, hx⟩ := ne_none hd
    obtain ⟨log, h1, h2, h4⟩ := destroy_ok h hx
    have e : ∀ q, owner ({ s with vars := upd s.vars i none, log := log } : St V) q = upd (owner s) i none q := by
      intro q
      by_cases hq : q = i
      · subst hq; simp [owner]
      · rw [upd_ne _ _ hq]; exact owner_congr (upd_ne _ _ hq)
    have hb := h2.congr e
    refine ⟨{ s with vars := upd s.vars i none, log := log }, by simp only [step, hx, h1],
      ⟨(hb.1 h.held).1, fun r hr => h.fresh r (h4 r hr), ?_, fun r hr => h.clean r (hb.2 h.held r hr)⟩, ?_⟩
    · intro q a t m hq
      by_cases hqi : q = i
      · subst hqi; simp at hq
      · exact h.wf q a t m (by simpa [upd_ne _ _ hqi] using hq)
    · exact contents_one (fun k hk => upd_ne _ _ hk) (by simp)

theorem reach_inv {s : St V} (hr : Reach (step al) (safe al) init s) : Inv al s := by
  refine Reach.inv inv_init ?_ hr
  intro s o s' h hp he
  obtain ⟨t, ht, hn, _⟩ := step_ok h hp
  rw [ht] at he
  injection he with he
  subst he
  exact hn

theorem shift_zero {addr a A : Nat} (h1 : A ∣ addr) (h2 : a ∣ A) : shift addr a = 0 := by
  have : addr % a = 0 := Nat.mod_eq_zero_of_dvd (Nat.dvd_trans h2 h1)
  simp [shift, this]

/-- The invariant of ordinary programs. -/
structure Ord (al : Nat → Nat) (A : Nat) (s : St V) : Prop where
  addr : ∀ i x, s.vars i = some x → A ∣ x.addr
  ty : ∀ i x t, s.vars i = some x → x.cb = some t → al t ∣ A

theorem Ord.safe {A : Nat} {s : St V} (h : Ord al A s) {o : Op V} (hp : ordinary al A s o) : safe al s o := by
  refine ⟨hp.1, ?_⟩
  have hfits : ∀ addr j, A ∣ addr → fits al s addr j := by
    intro addr j ha
    unfold fits
    split
    · rename_i b t m hv
      have h1 := h.addr j _ hv
      have h2 := h.ty j _ t hv rfl
      rw [shift_zero ha h2, shift_zero h1 h2]
    · trivial
  cases o with
  | moveCtor i addr j => exact hfits addr j hp.2
  | moveAssign i j =>
    cases hx : s.vars i with
    | none => simp [hx]
    | some x => simp only [hx]; exact hfits x.addr j (h.addr i x hx)
  | _ => trivial

theorem Ord.put {A : Nat} {s : St V} (h : Ord al A s) {s' : St V} {i : Nat} {o : Option (Var V)}
    (e : s'.vars = upd s.vars i o) (h1 : ∀ x, o = some x → A ∣ x.addr)
    (h2 : ∀ x t, o = some x → x.cb = some t → al t ∣ A) : Ord al A s' := by
  constructor
  · intro k x hk
    rw [e] at hk
    by_cases hki : k = i
    · subst hki; exact h1 x (by simpa using hk)
    · rw [upd_ne _ _ hki] at hk; exact h.addr k x hk
  · intro k x t hk ht
    rw [e] at hk
    by_cases hki : k = i
    · subst hki; exact h2 x t (by simpa using hk) ht
    · rw [upd_ne _ _ hki] at hk; exact h.ty k x t hk ht

theorem Ord.assignValue {A : Nat} {s s' : St V} (h : Ord al A s) {i t : Nat} {v : V} (ht : al t ∣ A)
    (hw : assignValue al s i t v = .ok s') : Ord al A s' := by
  unfold Object.assignValue at hw
  split at hw
  · cases hw
  · rename_i x hx
    split at hw
    · injection hw with hw
      subst hw
      refine h.put (i := i) rfl ?_ ?_
      · intro y hy; injection hy with hy; subst hy; exact h.addr i x hx
      · intro y u hy hu; injection hy with hy; subst hy; injection hu with hu; subst hu; exact ht
    · cases hw
    · cases hw

theorem Ord.assignMove {A : Nat} {s s' : St V} (h : Ord al A s) {i j : Nat}
    (hw : assignMove al s i j = .ok s') : Ord al A s' := by
  unfold Object.assignMove at hw
  split at hw
  · rename_i x y hx hy
    split at hw
    · injection hw with hw
      subst hw
      unfold transfer
      split
      · refine h.put (i := i) rfl ?_ ?_
        · intro z hz; injection hz with hz; subst hz; exact h.addr i x hx
        · intro z u hz hu; injection hz with hz; subst hz; cases hu
      · refine Ord.put (s := { s with vars := upd s.vars i (some ⟨x.addr, y.cb, y.mem⟩) }) ?_ (i := j) rfl ?_ ?_
        · refine h.put (i := i) rfl ?_ ?_
          · intro z hz; injection hz with hz; subst hz; exact h.addr i x hx
          · intro z u hz hu; injection hz with hz; subst hz; exact h.ty j y u hy hu
        · intro z hz; injection hz with hz; subst hz; exact h.addr j y hy
        · intro z u hz hu; injection hz with hz; subst hz; cases hu
    · cases hw
    · cases hw
  · cases hw

theorem Ord.step {A : Nat} {s s' : St V} (h : Ord al A s) {o : Op V} (hp : ordinary al A s o)
    (hw : step al s o = .ok s') : Ord al A s' := by
  unfold Object.step at hw
  have hfresh : ∀ i addr, A ∣ addr → Ord al A ({ s with vars := upd s.vars i (some (Object.fresh addr)) } : St V) := by
    intro i addr ha
    refine h.put (i := i) rfl ?_ ?_
    · intro z hz; injection hz with hz; subst hz; exact ha
    · intro z u hz hu; injection hz with hz; subst hz; cases hu
  cases o with
  | declare i addr =>
    simp only at hw
    split at hw
    · injection hw with hw; subst hw; exact hfresh i addr hp.2
    · cases hw
  | ctor i addr t v =>
    simp only at hw
    split at hw
    · exact (hfresh i addr hp.2.1).assignValue hp.2.2 hw
    · cases hw
  | moveCtor i addr j =>
    simp only at hw
    split at hw
    · exact (hfresh i addr hp.2).assignMove hw
    · cases hw
  | set i t v => exact h.assignValue hp.2 hw
  | moveAssign i j => exact h.assignMove hw
  | read i t =>
    simp only [get] at hw
    split at hw
    · rename_i hg
      injection hw with hw
      subst hw
      split at hg
      · cases hg
      · split at hg
        · injection hg with hg; injection hg with hg _; subst hg; exact ⟨h.addr, h.ty⟩
        · cases hg
    · cases hw
    · cases hw
  | drop i =>
    simp only at hw
    split at hw
    · cases hw
    · split at hw
      · injection hw with hw; subst hw
        exact h.put (i := i) (o := none) rfl (by simp) (by simp)
      · cases hw
      · cases hw

theorem ordinary_reach {A : Nat} {s : St V} (hr : Reach (step al) (ordinary al A) init s) :
    Reach (step al) (safe al) init s ∧ Ord al A s := by
  induction hr with
  | start => exact ⟨.start, by simp [init], by simp [init]⟩
  | step _ hp he ih => exact ⟨.step ih.1 (ih.2.safe hp) he, ih.2.step hp he⟩

end Flame.Life.Object

namespace Flame
open Own Life Life.Object

variable {V : Type} {al : Nat → Nat}

/-- If no stored type is aligned more strictly than `AlignedAsType` (the array is aligned as that type), then over
every history of constructing, storing, moving, reading and destroying nothing undefined happens and each object
holds exactly what the history says. -/
theorem C35_holds_ordinary {A : Nat} {s : St V} (hr : Reach (step al) (ordinary al A) init s) {o : Op V}
    (ho : ordinary al A s o) : ∃ s', step al s o = .ok s' ∧ contents s' = spec (contents s) o := by
  obtain ⟨h1, h2⟩ := ordinary_reach hr
  obtain ⟨s', h3, _, h4⟩ := Life.Object.step_ok (Life.Object.reach_inv h1) (h2.safe ho)
  exact ⟨s', h3, h4⟩

/-- … and every stored value is destroyed exactly once. -/
theorem C35_destroyed_once_ordinary {A : Nat} {s : St V} (hr : Reach (step al) (ordinary al A) init s)
    (hg : ∀ i, s.vars i = none) : ReleasedOnce s.log ∧ Proper s.log := by
  have h := Life.Object.reach_inv (ordinary_reach hr).1
  exact ⟨(h.held.ledger h.clean).releasedOnce fun i => by simp [owner, hg i], h.held.proper⟩

example : runPre (step fun _ => 8) (ordinary (fun _ => 8) 8) (init : St Nat)
    [.declare 0 16, .ctor 1 40 3 55, .set 0 4 66, .moveAssign 0 1, .moveCtor 2 64 0, .read 2 3, .moveAssign 2 2, .set 1 4 1,
     .drop 1, .drop 2, .drop 0] ≠ none := by decide

/-- For more strictly aligned types the same holds as long as values only move between arrays in which they have
the same offset.

Partial: moving such a value to an array with a different offset is always wrong, see `C35_overaligned_move_ub`. -/
theorem C35_holds_partial {s : St V} (hr : Reach (step al) (safe al) init s) {o : Op V} (ho : safe al s o) :
    ∃ s', step al s o = .ok s' ∧ contents s' = spec (contents s) o := by
  obtain ⟨s', h1, _, h2⟩ := Life.Object.step_ok (Life.Object.reach_inv hr) ho
  exact ⟨s', h1, h2⟩

theorem C35_destroyed_once_partial {s : St V} (hr : Reach (step al) (safe al) init s) (hg : ∀ i, s.vars i = none) :
    ReleasedOnce s.log ∧ Proper s.log := by
  have h := Life.Object.reach_inv hr
  exact ⟨(h.held.ledger h.clean).releasedOnce fun i => by simp [owner, hg i], h.held.proper⟩

/-- Moving a value to an array in which its type has a different offset: the destructor then runs on a place where
no such object is, and so does every access. -/
theorem C35_overaligned_move_ub {s : St V} (hr : Reach (step al) (safe al) init s) {i j t : Nat} {x y : Var V}
    (hij : i ≠ j) (hx : s.vars i = some x) (hy : s.vars j = some y) (ht : y.cb = some t)
    (hne : shift x.addr (al t) ≠ shift y.addr (al t)) :
    ∃ s', step al s (.moveAssign i j) = .ok s' ∧ step al s' (.drop i) = .ub ∧ step al s' (.read i t) = .ub ∧
      ∀ u v, step al s' (.set i u v) = .ub := by
  have hinv := Life.Object.reach_inv hr
  obtain ⟨log, h1, h2, _⟩ := Life.Object.destroy_ok hinv hx
  rcases cases_var hinv hy with ⟨hc, _⟩ | ⟨c, t', hc, hm, h3, h4, _, _, _, _⟩
  · rw [hc] at ht; cases ht
  · rw [hc] at ht
    injection ht with ht
    subst ht
    have hv : (transfer s i j x y log).vars i = some ⟨x.addr, some t', some c⟩ := by
      simp [transfer, hij, upd_ne _ _ hij, hc, hm]
    have hbad : ∀ l, at' al (⟨x.addr, some t', some c⟩ : Var V) t' l = none := by
      intro l
      have : ¬ c.off = shift x.addr (al t') := by rw [h4]; exact fun e => hne e.symm
      simp [at', this]
    have hdes : ∀ l, destroy al (⟨x.addr, some t', some c⟩ : Var V) l = .ub := fun l => by
      simp [destroy, hbad]
    refine ⟨transfer s i j x y log, by simp only [step, assignMove, hx, hy, h1], ?_, ?_, fun u v => ?_⟩
    · simp only [step, hv, hdes]
    · simp only [step, Object.get, hv, hbad]
    · simp only [step, assignValue, hv, hdes]

/-- A 16-byte aligned value moved from an array at address 16 to one at address 8. -/
example : ∃ s : St Nat, Reach (step fun _ => 16) (safe fun _ => 16) init s ∧
    (s.vars 0 = some ⟨16, some 1, some ⟨0, 1, 0, 5⟩⟩ ∧ s.vars 1 = some ⟨8, none, none⟩) ∧
    shift 8 16 ≠ shift 16 16 :=
  let ⟨s, h, e⟩ := Reach.witness (step := step fun _ => 16) (pre := safe fun _ => 16) (s₀ := (init : St Nat))
    [.ctor 0 16 1 5, .declare 1 8] (fun s => (s.vars 0, s.vars 1))
    (some ⟨16, some 1, some ⟨0, 1, 0, 5⟩⟩, some ⟨8, none, none⟩) (by decide)
  ⟨s, h, by injection e with h1 h2; exact ⟨h1, h2⟩, by decide⟩

/-- `get<T>` gives the stored value exactly when `T` is the stored type; otherwise (also on an empty object after a
move) it is undefined, nothing is checked. -/
theorem C35_get_exact {s : St V} (hr : Reach (step al) (safe al) init s) {i t u : Nat} {v : V}
    (hc : contents s i = some (some (u, v))) :
    (t = u → ∃ s', get al s i t = .ok (s', v)) ∧ (t ≠ u → get al s i t = .ub) := by
  have hinv := Life.Object.reach_inv hr
  have hi : s.vars i ≠ none := by intro e; simp [contents, e] at hc
  obtain ⟨x, hx⟩ := ne_none hi
  rcases cases_var hinv hx with ⟨_, _, hc'⟩ | ⟨c, t', h1, h2, h3, _, _, ha, _, hc'⟩
  · rw [hc'] at hc; simp at hc
  · rw [hc'] at hc
    simp only [Option.some.injEq, Prod.mk.injEq] at hc
    obtain ⟨rfl, rfl⟩ := hc
    constructor
    · rintro rfl
      exact ⟨{ s with log := .used c.obj :: s.log }, by simp only [Object.get, hx, ha]⟩
    · intro hne
      have : at' al x t s.log = none := by
        have h' : ¬ c.ty = t := by rw [h3]; exact fun e => hne e.symm
        simp [at', h2, h']
      simp only [Object.get, hx, this]

/-- A type accepted by `staticCheck` fits: constructed at the aligned place it ends inside the array, wherever the
array lies. -/
theorem C35_fits_in_array {SIZE A size align addr : Nat} (ha : 0 < align) (hA : A ∣ addr)
    (hdvd : align ≤ A → align ∣ A) (h : staticCheck SIZE A size align = true) :
    align ∣ addr + shift addr align ∧ shift addr align + size ≤ SIZE := by
  have hlt := Nat.mod_lt addr ha
  constructor
  · unfold shift
    split
    · refine Nat.dvd_of_mod_eq_zero ?_
      have e1 : addr + (align - addr % align) = align * (addr / align + 1) := by
        have := Nat.div_add_mod addr align
        rw [Nat.mul_add, Nat.mul_one]; omega
      rw [e1]; exact Nat.mul_mod_right _ _
    · rename_i h'
      exact Nat.dvd_of_mod_eq_zero (by simpa using h')
  · simp only [staticCheck, Bool.and_eq_true, decide_eq_true_eq] at h
    by_cases hc : A < align
    · simp only [hc, if_true, decide_eq_true_eq] at h
      unfold shift
      split <;> omega
    · rw [shift_zero hA (hdvd (by omega))]
      omega

example : staticCheck 64 8 16 32 = true ∧ (8 : Nat) ∣ 24 ∧ shift 24 32 = 8 := by decide

/-- For types no more strictly aligned than `AlignedAsType`, `staticCheck` accepts exactly those that fit, wherever the array
lies. -/
theorem C35_check_exact {SIZE A size align : Nat} (hA : 0 < A) (hdvd : align ∣ A) :
    staticCheck SIZE A size align = true ↔ ∀ addr, A ∣ addr → shift addr align + size ≤ SIZE := by
  have hle : ¬ A < align := by have := Nat.le_of_dvd hA hdvd; omega
  simp only [staticCheck, Bool.and_eq_true, decide_eq_true_eq, hle, if_false, and_true]
  constructor
  · intro h addr ha
    rw [shift_zero ha hdvd]; omega
  · intro h
    have := h 0 (Nat.dvd_zero A)
    omega

example : staticCheck 16 8 16 4 = true ∧ staticCheck 16 8 17 4 = false := by decide

/-- For more strictly aligned types `staticCheck` is too strict: it refuses every type with `size + alignment = SIZE` although it
fits wherever the array lies. -/
theorem C35_check_refuses_fitting {SIZE A size align : Nat} (hA : A < align) (hs : size + align = SIZE) :
    staticCheck SIZE A size align = false ∧ ∀ addr, align ∣ addr + shift addr align ∧ shift addr align + size ≤ SIZE := by
  have ha : 0 < align := by omega
  refine ⟨by simp [staticCheck, hA]; omega, fun addr => ?_⟩
  have hlt := Nat.mod_lt addr ha
  constructor
  · unfold shift
    split
    · refine Nat.dvd_of_mod_eq_zero ?_
      have e1 : addr + (align - addr % align) = align * (addr / align + 1) := by
        have := Nat.div_add_mod addr align
        rw [Nat.mul_add, Nat.mul_one]; omega
      rw [e1]; exact Nat.mul_mod_right _ _
    · rename_i h'
      exact Nat.dvd_of_mod_eq_zero (by simpa using h')
  · unfold shift; split <;> omega

example : (8 : Nat) < 32 ∧ 16 + 32 = 48 := by decide

namespace Flame
open Own Life Life.Object
private abbrev objOps : List (Op Nat) := [.declare 0 16, .ctor 1 40 3 55, .set 0 4 66]
example := C35_holds_ordinary (al := fun _ => 8) (A := 8) (.visit objOps (by decide +kernel)) (o := .moveAssign 0 1) (by decide +kernel)
example := C35_holds_partial (al := fun _ => 8) (.visit objOps (by decide +kernel)) (o := .moveAssign 0 1) (by decide +kernel)
example := C35_destroyed_once_partial (al := fun _ => 8) (s := (Object.init : St Nat)) .start (fun _ => rfl)
example := C35_get_exact (al := fun _ => 8) (.visit objOps (by decide +kernel)) (i := 0) (t := 3) (u := 4) (v := 66) (by decide +kernel)
end Flame

end Flame
