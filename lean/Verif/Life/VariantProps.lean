import Verif.Life.Variant

/-! # C31: `Variant` holds exactly the value last stored in it; every value is destroyed exactly once -/

namespace Flame.Life.Variant
open Flame.Own

variable {V : Type} {ts : List Nat} {moved : V → V}

/-! ## Positions -/

theorem level_nonneg : ∀ (ts : List Nat) (k : Nat), k < ts.length → level ts (k : Int) = some k
  | [], k, h => absurd h (by simp)
  | _ :: as, 0, _ => by simp [level]
  | _ :: as, k + 1, h => by
    have := level_nonneg as k (by simpa using h)
    have e : ((k + 1 : Nat) : Int) - 1 = (k : Int) := by omega
    simp only [level]
    rw [if_neg (by omega), e, this]
    rfl

theorem level_neg : ∀ (ts : List Nat) (n : Int), n < 0 → level ts n = none
  | [], _, _ => rfl
  | _ :: as, n, h => by
    simp only [level]
    rw [if_neg (by omega), level_neg as (n - 1) (by omega)]
    rfl

theorem setIndex_mem : ∀ (ts : List Nat) (t : Nat), t ∈ ts →
    ∃ k : Nat, setIndex ts t = (k : Int) ∧ ts[k]? = some t
  | [], t, h => absurd h (by simp)
  | a :: as, t, h => by
    by_cases e : t = a
    · exact ⟨0, by simp [setIndex, e], by simp [e]⟩
    · obtain ⟨k, h1, h2⟩ := setIndex_mem as t (by simpa [e] using h)
      refine ⟨k + 1, ?_, by simpa using h2⟩
      simp only [setIndex, if_neg e, h1]
      rw [if_neg (by omega)]
      omega

theorem setIndex_not_mem : ∀ (ts : List Nat) (t : Nat), t ∉ ts → setIndex ts t = -1
  | [], _, _ => rfl
  | a :: as, t, h => by
    simp only [List.mem_cons, not_or] at h
    simp [setIndex, h.1, setIndex_not_mem as t h.2]

theorem typeIndex_eq : ∀ (ts : List Nat) (t : Nat), typeIndex ts t = setIndex ts t
  | [], _ => rfl
  | a :: as, t => by
    simp only [typeIndex, setIndex, typeIndex_eq as t]
    split
    · rfl
    · split
      · rfl
      · omega

theorem member_eq : ∀ (ts : List Nat) (t : Nat),
    member ts t = if 0 ≤ setIndex ts t then some (setIndex ts t).toNat else none
  | [], _ => rfl
  | a :: as, t => by
    simp only [member, setIndex, member_eq as t]
    by_cases e : t = a
    · simp [e]
    · simp only [if_neg e]
      by_cases h : setIndex as t < 0
      · rw [if_neg (by omega), if_pos h, if_neg (by omega)]; rfl
      · rw [if_pos (by omega), if_neg h, if_pos (by omega)]
        simp only [Option.map_some, Option.some.injEq]
        omega

theorem getElem?_inj {l : List Nat} (hn : l.Nodup) {a b t : Nat} (ha : l[a]? = some t) (hb : l[b]? = some t) :
    a = b := by
  exact (List.getElem?_inj (List.getElem?_eq_some_iff.mp ha).1 hn).mp (ha.trans hb.symm)

/-! ## Invariant -/

/-- A variable that claims to hold something does. -/
def WF (ts : List Nat) (x : Var V) : Prop :=
  0 ≤ x.index → ∃ c, x.mem = some c ∧ c.ty = x.index.toNat ∧ x.index.toNat < ts.length

structure Inv (ts : List Nat) (s : St V) : Prop where
  ledger : Ledger (owner s) s.log
  fresh : ∀ r, .made r ∈ s.log → r < s.next
  wf : ∀ i x, s.vars i = some x → WF ts x

theorem inv_init : Inv ts (init : St V) :=
  ⟨Ledger.init.congr (by intro i; rfl), by simp [init], by simp [init]⟩

theorem owner_some {s : St V} {i : Nat} {x : Var V} {c : Cell V} (hx : s.vars i = some x) (hi : 0 ≤ x.index)
    (hc : x.mem = some c) : owner s i = some c.obj := by
  simp [owner, hx, hi, hc]

theorem owner_none {s : St V} {i : Nat} {x : Var V} (hx : s.vars i = some x) (hi : x.index < 0) :
    owner s i = none := by
  simp only [owner, hx]
  rw [if_neg (by omega)]

/-- The `Ledger` only looks at what the variables own. -/
theorem owner_congr {s s' : St V} {k : Nat} (h : s'.vars k = s.vars k) : owner s' k = owner s k := by
  simp [owner, h]

theorem resetVar_ok {s : St V} (h : Inv ts s) {i : Nat} {x : Var V} (hx : s.vars i = some x) :
    ∃ s1, resetVar ts s i x = .ok s1 ∧ Inv ts s1 ∧ (∃ y, s1.vars i = some y ∧ y.index < 0) ∧
      (∀ k, k ≠ i → s1.vars k = s.vars k) := by
  by_cases hi : 0 ≤ x.index
  · obtain ⟨c, hc, hty, hlt⟩ := h.wf i x hx hi
    have ho := owner_some hx hi hc
    have hlive := h.ledger.ownedLive i _ ho
    have hl : level ts x.index = some x.index.toNat := by
      have := level_nonneg ts x.index.toNat hlt
      rwa [Int.toNat_of_nonneg hi] at this
    refine ⟨{ s with vars := upd s.vars i (some { x with index := -1 }), log := .closed c.obj :: s.log }, ?_,
      ⟨?_, ?_, ?_⟩, ⟨_, upd_self _ _ _, by simp⟩, fun k hk => upd_ne _ _ hk⟩
    · simp [resetVar, hi, hl, destroyMember, hc, hty, hlive]
    · refine (h.ledger.close ho).congr ?_
      intro k
      by_cases hk : k = i
      · subst hk; simp [owner]
      · rw [upd_ne _ _ hk]; exact owner_congr (upd_ne _ _ hk)
    · intro r hr
      exact h.fresh r (by simpa using hr)
    · intro k y hk
      by_cases hki : k = i
      · subst hki
        simp only [upd_self, Option.some.injEq] at hk
        subst hk
        intro h0
        simp at h0
      · exact h.wf k y (by simpa [upd_ne _ _ hki] using hk)
  · exact ⟨s, by simp [resetVar, hi], h, ⟨x, hx, by omega⟩, fun _ _ => rfl⟩

theorem setIdx_neg {s : St V} (h : Inv ts s) {i : Nat} {x : Var V} (hx : s.vars i = some x) (hi : x.index < 0)
    {n : Int} (hn : n < 0) :
    ∃ s1, setIdx s i n = .ok s1 ∧ Inv ts s1 ∧ s1.vars i = some { x with index := n } ∧
      (∀ k, k ≠ i → s1.vars k = s.vars k) := by
  refine ⟨{ s with vars := upd s.vars i (some { x with index := n }) }, by simp [setIdx, hx], ⟨?_, h.fresh, ?_⟩,
    upd_self _ _ _, fun k hk => upd_ne _ _ hk⟩
  · refine h.ledger.congr ?_
    intro k
    by_cases hk : k = i
    · subst hk
      rw [owner_none hx hi]
      exact owner_none (upd_self _ _ _) hn
    · exact owner_congr (upd_ne _ _ hk)
  · intro k y hk
    by_cases hki : k = i
    · subst hki
      simp only [upd_self, Option.some.injEq] at hk
      subst hk
      intro h0
      simp only at h0
      omega
    · exact h.wf k y (by simpa [upd_ne _ _ hki] using hk)

theorem build_inv {s : St V} (h : Inv ts s) {i : Nat} {x : Var V} (hx : s.vars i = some x) (hi : x.index < 0)
    {k : Nat} (hk : k < ts.length) (v : V) : Inv ts (build s i k v (k : Int)) := by
  have h1 : .made s.next ∉ s.log := fun hm => Nat.lt_irrefl _ (h.fresh _ hm)
  have h2 : .closed s.next ∉ s.log := fun hc => h1 (closed_made h.ledger.proper hc)
  refine ⟨?_, ?_, ?_⟩
  · refine (h.ledger.make (owner_none hx hi) h1 h2).congr ?_
    intro q
    by_cases hq : q = i
    · subst hq; simp [owner, build]
    · rw [upd_ne _ _ hq]; exact owner_congr (upd_ne _ _ hq)
  · intro r hr
    rcases List.mem_cons.mp hr with h' | h'
    · injection h' with h'; subst h'; exact Nat.lt_succ_self _
    · exact Nat.lt_succ_of_lt (h.fresh r h')
  · intro q y hq
    by_cases hqi : q = i
    · subst hqi
      simp only [build, upd_self, Option.some.injEq] at hq
      subst hq
      intro _
      exact ⟨_, rfl, by simp, by simpa using hk⟩
    · exact h.wf q y (by simpa [build, upd_ne _ _ hqi] using hq)

theorem setInto_ok {s : St V} (h : Inv ts s) {i : Nat} {x : Var V} (hx : s.vars i = some x) (hi : x.index < 0)
    (t : Nat) (v : V) :
    ∃ s1, setInto ts s i t v = .ok s1 ∧ Inv ts s1 ∧ (∀ k, k ≠ i → s1.vars k = s.vars k) ∧
      ∃ y, s1.vars i = some y ∧ holds ts y = if t ∈ ts then some (t, v) else none := by
  by_cases ht : t ∈ ts
  · obtain ⟨k, hk, he⟩ := setIndex_mem ts t ht
    have hlt := (List.getElem?_eq_some_iff.mp he).1
    refine ⟨build s i k v k, ?_, build_inv h hx hi hlt v, fun q hq => upd_ne _ _ hq, ⟨_, upd_self _ _ _, ?_⟩⟩
    · simp only [setInto, hk]
      rw [if_neg (by omega)]
      rfl
    · simp [holds, he, ht]
  · obtain ⟨s1, h1, h2, h3, h4⟩ := setIdx_neg h hx hi (n := -1) (by omega)
    refine ⟨s1, ?_, h2, h4, _, h3, ?_⟩
    · simp only [setInto, setIndex_not_mem ts t ht]
      exact h1
    · simp [holds, ht]

/-- Reading adds a `used` event. -/
theorem use_inv {s : St V} (h : Inv ts s) {j : Nat} {y : Var V} {c : Cell V} (hy : s.vars j = some y)
    (hj : 0 ≤ y.index) (hc : y.mem = some c) : Inv ts { s with log := .used c.obj :: s.log } := by
  refine ⟨?_, ?_, h.wf⟩
  · exact (h.ledger.use (owner_some hy hj hc)).congr (fun k => owner_congr rfl)
  · intro r hr
    exact h.fresh r (by simpa using hr)

theorem takeFrom_inv {s : St V} (h : Inv ts s) (j : Nat) : Inv ts (takeFrom moved s j) := by
  unfold takeFrom
  split
  · rename_i n c hv
    refine ⟨?_, h.fresh, ?_⟩
    · refine h.ledger.congr ?_
      intro k
      by_cases hk : k = j
      · subst hk; simp [owner, hv]
      · exact owner_congr (upd_ne _ _ hk)
    · intro q y hq
      by_cases hqj : q = j
      · subst hqj
        simp only [upd_self, Option.some.injEq] at hq
        subst hq
        intro h0
        obtain ⟨c', hc', hty, hlt⟩ := h.wf q _ hv h0
        simp only [Option.some.injEq] at hc'
        subst hc'
        exact ⟨_, rfl, hty, hlt⟩
      · exact h.wf q y (by simpa [upd_ne _ _ hqj] using hq)
  · exact h

theorem assignInto_ok {s : St V} (h : Inv ts s) {i j : Nat} {x y : Var V} (hx : s.vars i = some x)
    (hi : x.index < 0) (hy : s.vars j = some y) (hij : i ≠ j) (mv : Bool) :
    ∃ s1, assignInto ts moved s i j y.index mv = .ok s1 ∧ Inv ts s1 ∧
      (∀ k, k ≠ i → k ≠ j → s1.vars k = s.vars k) ∧
      (∃ x', s1.vars i = some x' ∧ holds ts x' = holds ts y) ∧
      (∃ y', s1.vars j = some y' ∧ holds ts y' =
        if mv then (holds ts y).map (fun p => (p.1, moved p.2)) else holds ts y) := by
  have hji : j ≠ i := fun e => hij e.symm
  by_cases hj : 0 ≤ y.index
  · obtain ⟨c, hc, hty, hlt⟩ := h.wf j y hy hj
    have hlive := h.ledger.ownedLive j _ (owner_some hy hj hc)
    have hl : level ts y.index = some y.index.toNat := by
      have := level_nonneg ts y.index.toNat hlt
      rwa [Int.toNat_of_nonneg hj] at this
    have hr : readMember s j y.index.toNat = .ok c := by
      obtain ⟨n, m⟩ := y
      simp only at hc hty
      simp [readMember, hy, hc, hty, hlive]
    have hu := use_inv h hy hj hc
    have hb := build_inv (i := i) hu hx hi hlt c.val
    rw [Int.toNat_of_nonneg hj] at hb
    have hholdy : holds ts y = some (ts[y.index.toNat]'hlt, c.val) := by
      simp [holds, hj, hc, hlt]
    have hholdx : holds ts (⟨y.index, some ⟨s.next, y.index.toNat, c.val⟩⟩ : Var V) = holds ts y := by
      rw [hholdy]; simp [holds, hj, hlt]
    cases mv with
    | false =>
      refine ⟨build { s with log := .used c.obj :: s.log } i y.index.toNat c.val y.index, ?_, hb, ?_, ?_, ?_⟩
      · simp [assignInto, hl, hr]
      · intro k hk _; exact upd_ne _ _ hk
      · exact ⟨_, upd_self _ _ _, hholdx⟩
      · exact ⟨y, (upd_ne _ _ hji).trans hy, by simp⟩
    | true =>
      have hvj : (build { s with log := .used c.obj :: s.log } i y.index.toNat c.val y.index).vars j
          = some ⟨y.index, some c⟩ := by
        refine (upd_ne _ _ hji).trans ?_
        rw [← hc]; exact hy
      refine ⟨takeFrom moved (build { s with log := .used c.obj :: s.log } i y.index.toNat c.val y.index) j, ?_,
        takeFrom_inv hb j, ?_, ?_, ?_⟩
      · simp [assignInto, hl, hr]
      · intro k hk hkj
        simp only [takeFrom, hvj]
        exact (upd_ne _ _ hkj).trans (upd_ne _ _ hk)
      · refine ⟨⟨y.index, some ⟨s.next, y.index.toNat, c.val⟩⟩, ?_, hholdx⟩
        simp only [takeFrom, hvj]
        exact (upd_ne _ _ hij).trans (upd_self _ _ _)
      · refine ⟨⟨y.index, some { c with val := moved c.val }⟩, ?_, ?_⟩
        · simp only [takeFrom, hvj]
          exact upd_self _ _ _
        · rw [hholdy]; simp [holds, hj, hlt]
  · obtain ⟨s1, h1, h2, h3, h4⟩ := setIdx_neg h hx hi (n := y.index) (by omega)
    have hholdy : holds ts y = none := by simp [holds, hj]
    refine ⟨s1, ?_, h2, fun k hk _ => h4 k hk, ⟨_, h3, ?_⟩, ⟨y, (h4 j hji).trans hy, ?_⟩⟩
    · simp only [assignInto, level_neg ts y.index (by omega)]
      exact h1
    · rw [hholdy]; simp [holds, hj]
    · rw [hholdy]; simp

/-- Bringing a new variable to life. -/
theorem fresh_inv {s : St V} (h : Inv ts s) {i : Nat} (hi : s.vars i = none) :
    Inv ts { s with vars := upd s.vars i (some fresh) } := by
  refine ⟨?_, h.fresh, ?_⟩
  · refine h.ledger.congr ?_
    intro k
    by_cases hk : k = i
    · subst hk; simp [owner, fresh, hi]
    · exact owner_congr (upd_ne _ _ hk)
  · intro q y hq
    by_cases hqi : q = i
    · subst hqi
      simp only [upd_self, Option.some.injEq] at hq
      subst hq
      intro h0
      simp [fresh] at h0
    · exact h.wf q y (by simpa [upd_ne _ _ hqi] using hq)

theorem ne_none {α : Type} {o : Option α} (h : o ≠ none) : ∃ a, o = some a := by
  cases o with
  | none => exact absurd rfl h
  | some a => exact ⟨a, rfl⟩

/-- Contents after an operation that only touches `i`. -/
theorem contents_one {s s1 : St V} {i : Nat} {o : Option (Option (Nat × V))}
    (hk : ∀ k, k ≠ i → s1.vars k = s.vars k) (hi : (s1.vars i).map (holds ts) = o) :
    contents ts s1 = upd (contents ts s) i o := by
  funext k
  by_cases h : k = i
  · subst h; simpa [contents] using hi
  · rw [upd_ne _ _ h]; simp [contents, hk k h]

/-- Contents after an operation that touches `i` and `j`. -/
theorem contents_two {s s1 : St V} {i j : Nat} {o p : Option (Option (Nat × V))}
    (hk : ∀ k, k ≠ i → k ≠ j → s1.vars k = s.vars k) (hij : i ≠ j) (hi : (s1.vars i).map (holds ts) = o)
    (hj : (s1.vars j).map (holds ts) = p) :
    contents ts s1 = upd (upd (contents ts s) i o) j p := by
  funext k
  by_cases h : k = j
  · subst h; simpa [contents] using hj
  · rw [upd_ne _ _ h]
    by_cases h' : k = i
    · subst h'; simpa [contents] using hi
    · rw [upd_ne _ _ h']; simp [contents, hk k h' h]

theorem upd_noop {α : Type} (f : Nat → α) (i : Nat) {a : α} (h : f i = a) : upd f i a = f := by
  funext k
  by_cases hk : k = i
  · subst hk; simp [h]
  · exact upd_ne _ _ hk

theorem holds_neg {x : Var V} (h : x.index < 0) : holds ts x = none := by
  unfold holds
  rw [if_neg (by omega)]

/-- Constructing `i` from `j`, by copy or by move. -/
theorem construct_ok {s : St V} (h : Inv ts s) {i j : Nat} {y : Var V} (hi : s.vars i = none)
    (hy : s.vars j = some y) (mv : Bool) :
    ∃ s1, assignInto ts moved { s with vars := upd s.vars i (some fresh) } i j y.index mv = .ok s1 ∧ Inv ts s1 ∧
      contents ts s1 = upd (upd (contents ts s) i (contents ts s j)) j
        (if mv then (contents ts s j).map (Option.map fun p => (p.1, moved p.2)) else contents ts s j) := by
  have hij : i ≠ j := by intro e; subst e; rw [hi] at hy; cases hy
  have hji : j ≠ i := fun e => hij e.symm
  obtain ⟨s1, h1, h2, h3, ⟨x', hx', hxh⟩, ⟨y', hy', hyh⟩⟩ :=
    assignInto_ok (moved := moved) (i := i) (j := j) (fresh_inv h hi) (upd_self _ _ _) (by simp [fresh])
      ((upd_ne _ _ hji).trans hy) hij mv
  refine ⟨s1, h1, h2, ?_⟩
  refine (contents_two (s := { s with vars := upd s.vars i (some fresh) }) h3 hij
    (by rw [hx']) (by rw [hy'])).trans ?_
  have hb : contents ts { s with vars := upd s.vars i (some fresh) } = upd (contents ts s) i (some none) := by
    refine contents_one (fun k hk => upd_ne _ _ hk) ?_
    simp [holds_neg, fresh]
  simp only [Option.map_some]
  rw [hb, hxh, hyh]
  have hcj : contents ts s j = some (holds ts y) := by simp [contents, hy]
  rw [hcj]
  funext k
  by_cases hkj : k = j
  · subst hkj; cases mv <;> simp
  · rw [upd_ne _ _ hkj, upd_ne _ _ hkj]
    by_cases hki : k = i
    · subst hki; simp
    · rw [upd_ne _ _ hki, upd_ne _ _ hki, upd_ne _ _ hki]

/-- Replacing the contents of `i` by those of `j`, by copy or by move. -/
theorem replace_ok {s : St V} (h : Inv ts s) {i j : Nat} {x y : Var V} (hx : s.vars i = some x)
    (hy : s.vars j = some y) (hij : i ≠ j) (mv : Bool) :
    ∃ s0 s1, resetVar ts s i x = .ok s0 ∧ assignInto ts moved s0 i j y.index mv = .ok s1 ∧ Inv ts s1 ∧
      contents ts s1 = upd (upd (contents ts s) i (contents ts s j)) j
        (if mv then (contents ts s j).map (Option.map fun p => (p.1, moved p.2)) else contents ts s j) := by
  have hji : j ≠ i := fun e => hij e.symm
  obtain ⟨s0, r1, r2, ⟨x0, hx0, hneg⟩, r4⟩ := resetVar_ok h hx
  obtain ⟨s1, h1, h2, h3, ⟨x', hx', hxh⟩, ⟨y', hy', hyh⟩⟩ :=
    assignInto_ok (moved := moved) (i := i) (j := j) r2 hx0 hneg ((r4 j hji).trans hy) hij mv
  refine ⟨s0, s1, r1, h1, h2, ?_⟩
  refine (contents_two (s := s) (fun k hk hkj => (h3 k hk hkj).trans (r4 k hk)) hij
    (by rw [hx']) (by rw [hy'])).trans ?_
  have hcj : contents ts s j = some (holds ts y) := by simp [contents, hy]
  simp only [Option.map_some]
  rw [hxh, hyh, hcj]
  cases mv <;> simp

theorem getType_member {x : Var V} (hw : WF ts x) {t k : Nat} (hg : getType ts x t = some k) :
    ∃ c, x.mem = some c ∧ c.ty = k ∧ 0 ≤ x.index ∧ ts[k]? = some t := by
  unfold getType at hg
  split at hg
  · rename_i hcond
    obtain ⟨he, hi⟩ := hcond
    rw [member_eq, ← typeIndex_eq, he, if_pos hi] at hg
    injection hg with hg
    obtain ⟨c, hc, hty, hlt⟩ := hw hi
    refine ⟨c, hc, by omega, hi, ?_⟩
    rw [typeIndex_eq] at he
    by_cases ht : t ∈ ts
    · obtain ⟨q, hq, hqe⟩ := setIndex_mem ts t ht
      have : q = k := by omega
      rw [← this]; exact hqe
    · rw [setIndex_not_mem ts t ht] at he
      omega
  · cases hg

theorem getIndex_eq (hn : ts.Nodup) {k : Nat} (hk : k < ts.length) : getIndex ts k = some k := by
  have hm : ts[k] ∈ ts := List.getElem_mem hk
  obtain ⟨q, hq, hqe⟩ := setIndex_mem ts _ hm
  have hqk : q = k := getElem?_inj hn hqe (by simp)
  simp only [getIndex, List.getElem?_eq_getElem hk, member_eq, hq]
  simp [hqk]

/-- A read through a pointer at the stored value. -/
theorem read_ok {s : St V} (h : Inv ts s) {i k : Nat} {x : Var V} {c : Cell V} (hx : s.vars i = some x)
    (hi : 0 ≤ x.index) (hc : x.mem = some c) (hk : c.ty = k) : readMember s i k = .ok c := by
  have hlive := h.ledger.ownedLive i _ (owner_some hx hi hc)
  obtain ⟨n, m⟩ := x
  simp only at hc
  simp [readMember, hx, hc, hk, hlive]

theorem step_ok (hn : ts.Nodup) {s : St V} (h : Inv ts s) {o : Op V} (hp : safe s o) :
    ∃ s', step ts moved s o = .ok s' ∧ Inv ts s' ∧ (careful s o → contents ts s' = spec ts moved (contents ts s) o) := by
  obtain ⟨hd, hp⟩ := hp
  cases o with
  | declare i =>
    simp only [declared] at hd
    refine ⟨_, by simp only [step, hd], fresh_inv h hd, fun _ => ?_⟩
    refine contents_one (fun k hk => upd_ne _ _ hk) ?_
    simp [holds_neg, fresh]
  | ctor i t v =>
    simp only [declared] at hd
    obtain ⟨s1, h1, h2, h3, y, hy, hh⟩ :=
      setInto_ok (i := i) (x := fresh) (fresh_inv h hd) (upd_self _ _ _) (by simp [fresh]) t v
    refine ⟨s1, by simp only [step, hd]; exact h1, h2, fun _ => ?_⟩
    refine contents_one (fun k hk => (h3 k hk).trans (upd_ne _ _ hk)) ?_
    rw [hy]; simp [hh]
  | copyConst i j =>
    obtain ⟨hi, hj⟩ := hd
    obtain ⟨y, hy⟩ := ne_none hj
    obtain ⟨s1, h1, h2, h3⟩ := construct_ok (moved := moved) h hi hy false
    refine ⟨s1, by simp only [step, hi, hy]; exact h1, h2, fun _ => h3.trans ?_⟩
    have hij : i ≠ j := by intro e; subst e; rw [hi] at hy; cases hy
    refine upd_noop _ _ ?_
    rw [upd_ne _ _ (fun e => hij e.symm)]; rfl
  | copyVar i j =>
    obtain ⟨hi, hj⟩ := hd
    obtain ⟨y, hy⟩ := ne_none hj
    by_cases h0 : 0 ≤ y.index
    · obtain ⟨s1, h1, h2, h3⟩ := construct_ok (moved := moved) h hi hy true
      refine ⟨s1, by simp only [step, hi, hy, if_pos h0]; exact h1, h2, ?_⟩
      intro hc
      have := hc.2
      simp only [indexOf, hy] at this
      omega
    · refine ⟨{ s with vars := upd s.vars i (some fresh) }, by simp only [step, hi, hy, if_neg h0], fresh_inv h hi,
        fun _ => ?_⟩
      refine contents_one (fun k hk => upd_ne _ _ hk) ?_
      simp [holds_neg, fresh, contents, hy, show y.index < 0 by omega]
  | moveCtor i j =>
    obtain ⟨hi, hj⟩ := hd
    obtain ⟨y, hy⟩ := ne_none hj
    obtain ⟨s1, h1, h2, h3⟩ := construct_ok (moved := moved) h hi hy true
    have hij : i ≠ j := by intro e; subst e; rw [hi] at hy; cases hy
    exact ⟨s1, by simp only [step, hi, hy]; exact h1, h2, fun _ => h3.trans (by simp [spec, hij])⟩
  | set i t v =>
    obtain ⟨x, hx⟩ := ne_none hd
    obtain ⟨s0, r1, r2, ⟨x0, hx0, hneg⟩, r4⟩ := resetVar_ok h hx
    obtain ⟨s1, h1, h2, h3, y, hy, hh⟩ := setInto_ok r2 hx0 hneg t v
    refine ⟨s1, by simp only [step, hx, r1]; exact h1, h2, fun _ => ?_⟩
    refine contents_one (fun k hk => (h3 k hk).trans (r4 k hk)) ?_
    rw [hy]; simp [hh]
  | setFrom i j =>
    obtain ⟨hi, hj⟩ := hd
    obtain ⟨hij, h0⟩ := hp
    obtain ⟨x, hx⟩ := ne_none hi
    obtain ⟨y, hy⟩ := ne_none hj
    simp only [indexOf, hy] at h0
    obtain ⟨c, hc, hty, hlt⟩ := h.wf j y hy h0
    obtain ⟨s0, r1, r2, ⟨x0, hx0, hneg⟩, r4⟩ := resetVar_ok h hx
    have hy0 := (r4 j (fun e => hij e.symm)).trans hy
    have hr := read_ok r2 hy0 h0 hc rfl
    obtain ⟨s1, h1, h2, h3, z, hz, hh⟩ := setInto_ok (use_inv r2 hy0 h0 hc) hx0 hneg (ts.getD c.ty 0) c.val
    refine ⟨s1, by simp only [step, hx, hy, hc, r1, hr]; exact h1, h2, fun _ => ?_⟩
    refine contents_one (fun k hk => (h3 k hk).trans (r4 k hk)) ?_
    rw [hz]
    have ht : ts.getD c.ty 0 = ts[y.index.toNat]'hlt := by
      rw [List.getD_eq_getElem?_getD, hty, List.getElem?_eq_getElem hlt]; rfl
    have hm : ts.getD c.ty 0 ∈ ts := by rw [ht]; exact List.getElem_mem hlt
    rw [if_pos hm] at hh
    simp only [Option.map_some, hh, contents, hy]
    rw [ht]
    simp [holds, h0, hc, hlt]
  | assign i j =>
    obtain ⟨hi, hj⟩ := hd
    obtain ⟨x, hx⟩ := ne_none hi
    obtain ⟨y, hy⟩ := ne_none hj
    by_cases hcond : i ≠ j ∧ 0 ≤ y.index
    · obtain ⟨s0, s1, h1, h2, h3, h4⟩ := replace_ok (moved := moved) h hx hy hcond.1 false
      refine ⟨s1, by simp only [step, hx, hy, if_pos hcond, h1]; exact h2, h3, fun _ => h4.trans ?_⟩
      refine upd_noop _ _ ?_
      rw [upd_ne _ _ (fun e => hcond.1 e.symm)]; rfl
    · refine ⟨s, by simp only [step, hx, hy, if_neg hcond], h, fun hc => ?_⟩
      have := hc.2
      simp only [indexOf, hy] at this
      have hij : i = j := by
        rcases this with e | e
        · exact e
        · exact Classical.byContradiction fun hne => hcond ⟨hne, e⟩
      subst hij
      exact (upd_noop _ _ rfl).symm
  | moveAssign i j =>
    obtain ⟨hi, hj⟩ := hd
    obtain ⟨x, hx⟩ := ne_none hi
    obtain ⟨y, hy⟩ := ne_none hj
    by_cases hcond : i ≠ j ∧ 0 ≤ y.index
    · obtain ⟨s0, s1, h1, h2, h3, h4⟩ := replace_ok (moved := moved) h hx hy hcond.1 true
      exact ⟨s1, by simp only [step, hx, hy, if_pos hcond, h1]; exact h2, h3, fun _ => h4.trans (by simp [spec, hcond.1])⟩
    · refine ⟨s, by simp only [step, hx, hy, if_neg hcond], h, fun hc => ?_⟩
      have := hc.2
      simp only [indexOf, hy] at this
      have hij : i = j := by
        rcases this with e | e
        · exact e
        · exact Classical.byContradiction fun hne => hcond ⟨hne, e⟩
      simp [spec, hij]
  | reset i =>
    obtain ⟨x, hx⟩ := ne_none hd
    obtain ⟨s0, r1, r2, ⟨x0, hx0, hneg⟩, r4⟩ := resetVar_ok h hx
    refine ⟨s0, by simp only [step, hx]; exact r1, r2, fun _ => ?_⟩
    refine contents_one r4 ?_
    rw [hx0]; simp [holds_neg hneg]
  | useType i t =>
    obtain ⟨x, hx⟩ := ne_none hd
    cases hg : getType ts x t with
    | none => exact ⟨s, by simp only [step, hx, hg], h, fun _ => rfl⟩
    | some k =>
      obtain ⟨c, hc, hty, h0, _⟩ := getType_member (h.wf i x hx) hg
      have hr := read_ok h hx h0 hc hty
      exact ⟨_, by simp only [step, hx, hg, hr], use_inv h hx h0 hc, fun _ => rfl⟩
  | useIndex i k =>
    obtain ⟨x, hx⟩ := ne_none hd
    simp only [indexOf, hx] at hp
    have h0 : 0 ≤ x.index := by omega
    obtain ⟨c, hc, hty, hlt⟩ := h.wf i x hx h0
    have hg : getIndex ts k = some k := getIndex_eq hn (by omega)
    have hr := read_ok h hx h0 hc (k := k) (by omega)
    exact ⟨_, by simp only [step, hx, hg, hr], use_inv h hx h0 hc, fun _ => rfl⟩
  | drop i =>
    obtain ⟨x, hx⟩ := ne_none hd
    obtain ⟨s0, r1, r2, ⟨x0, hx0, hneg⟩, r4⟩ := resetVar_ok h hx
    refine ⟨{ s0 with vars := upd s0.vars i none }, by simp only [step, hx, r1], ⟨?_, r2.fresh, ?_⟩, fun _ => ?_⟩
    · refine r2.ledger.congr ?_
      intro k
      by_cases hk : k = i
      · subst hk
        rw [owner_none hx0 hneg]
        simp [owner]
      · exact owner_congr (upd_ne _ _ hk)
    · intro q y hq
      by_cases hqi : q = i
      · subst hqi; simp at hq
      · exact r2.wf q y (by simpa [upd_ne _ _ hqi] using hq)
    · refine contents_one (fun k hk => (upd_ne _ _ hk).trans (r4 k hk)) ?_
      simp

theorem reach_inv (hn : ts.Nodup) {s : St V} (hr : Reach (step ts moved) safe init s) : Inv ts s := by
  refine Reach.inv inv_init ?_ hr
  intro s o s' h hp he
  obtain ⟨t, ht, hi, _⟩ := step_ok (moved := moved) hn h hp
  rw [ht] at he
  injection he with he
  subst he
  exact hi

end Flame.Life.Variant

namespace Flame
open Own Life.Variant

variable {V : Type} {ts : List Nat} {moved : V → V}

theorem Life.Variant.Reach.safe {s : St V} (hr : Reach (step ts moved) careful init s) :
    Reach (step ts moved) Life.Variant.safe init s := by
  induction hr with
  | start => exact .start
  | step _ hp he ih => exact .step ih hp.1 he

/-- One careful operation in any state reached by careful operations never does anything undefined and changes
what the variants hold exactly as specified.

Partial: without care the claim fails, see `C31_copy_nonconst_moves`, `C31_assign_unset_ignored`,
`C31_set_own_value_ub`, `C31_get_by_index_ub`. -/
theorem C31_holds_last_partial (hn : ts.Nodup) {s : St V} (hr : Reach (step ts moved) careful init s) {o : Op V}
    (hc : careful s o) :
    ∃ s', step ts moved s o = .ok s' ∧ contents ts s' = spec ts moved (contents ts s) o := by
  obtain ⟨s', h1, _, h2⟩ := step_ok (moved := moved) hn (reach_inv hn (Life.Variant.Reach.safe hr)) hc.1
  exact ⟨s', h1, h2 hc⟩

/-- The same for a whole history: the variants hold what the history stored last. -/
theorem C31_history_partial [DecidableEq V] (hn : ts.Nodup) (os : List (Op V)) {s : St V}
    (hr : runPre (step ts moved) careful init os = some s) :
    contents ts s = os.foldl (spec ts moved) (fun _ => none) := by
  have key : ∀ (os : List (Op V)) (s0 : St V), Reach (step ts moved) careful init s0 →
      runPre (step ts moved) careful s0 os = some s → contents ts s = os.foldl (spec ts moved) (contents ts s0) := by
    intro os
    induction os with
    | nil => intro s0 _ h; simp [runPre] at h; subst h; rfl
    | cons o os ih =>
      intro s0 h0 h
      simp only [runPre] at h
      split at h
      · rename_i hp
        obtain ⟨s1, h1, h2⟩ := C31_holds_last_partial hn h0 hp
        rw [h1] at h
        rw [List.foldl_cons, ← h2]
        exact ih s1 (.step h0 hp h1) h
      · cases h
  exact key os init .start hr

example : runPre (step [7, 8, 9] (fun _ => 0)) careful (init : St Nat)
    [.declare 0, .ctor 1 8 55, .set 0 9 66, .assign 0 1, .moveCtor 2 1, .reset 0, .drop 1] ≠ none := by decide

/-- Lifetimes are in order over every history of safe operations: nothing undefined happens, and once all
variables are gone every stored value was destroyed exactly once. -/
theorem C31_destroyed_once_partial (hn : ts.Nodup) {s : St V} (hr : Reach (step ts moved) safe init s) :
    Proper s.log ∧ (∀ o, safe s o → ∃ s', step ts moved s o = .ok s') ∧
      ((∀ i, s.vars i = none) → ReleasedOnce s.log) := by
  have hi := reach_inv hn hr
  refine ⟨hi.ledger.proper, fun o ho => ?_, fun hg => hi.ledger.releasedOnce fun i => by simp [owner, hg i]⟩
  obtain ⟨s', h, _⟩ := step_ok (moved := moved) hn hi ho
  exact ⟨s', h⟩

example : ∃ s : St Nat, Reach (step [7, 8] id) safe init s ∧
    (s.vars 0 = none ∧ s.log = [.closed 1, .made 1, .closed 0, .made 0]) :=
  let ⟨s, h, e⟩ := Reach.witness (step := step [7, 8] id) (pre := safe) (s₀ := (init : St Nat))
    [.ctor 0 7 5, .set 0 8 6, .drop 0] (fun s => (s.vars 0, s.log))
    (none, [.closed 1, .made 1, .closed 0, .made 0]) (by decide)
  ⟨s, h, by injection e with h1 h2; exact ⟨h1, h2⟩⟩

/-- `get<T>()` is non-null exactly when the variant holds a `T`; it then points at the stored value. -/
theorem C31_get_exact (hn : ts.Nodup) {s : St V} (hr : Reach (step ts moved) safe init s) {i : Nat} {x : Var V}
    (hx : s.vars i = some x) (t : Nat) :
    (getType ts x t ≠ none ↔ ∃ v, contents ts s i = some (some (t, v))) ∧
    (∀ k, getType ts x t = some k → ∃ c, readMember s i k = .ok c ∧ contents ts s i = some (some (t, c.val))) := by
  have hi := reach_inv hn hr
  have hw := hi.wf i x hx
  have h2 : ∀ k, getType ts x t = some k →
      ∃ c, readMember s i k = .ok c ∧ contents ts s i = some (some (t, c.val)) := by
    intro k hk
    obtain ⟨c, hc, hty, h0, ht⟩ := getType_member hw hk
    obtain ⟨c', hc', hty', hlt⟩ := hw h0
    rw [hc] at hc'
    injection hc' with hc'
    subst hc'
    refine ⟨c, read_ok hi hx h0 hc hty, ?_⟩
    have : x.index.toNat = k := by omega
    simp only [contents, hx, Option.map_some, holds, if_pos h0, hc, this, ht]
  refine ⟨⟨fun h => ?_, fun ⟨v, hv⟩ => ?_⟩, h2⟩
  · obtain ⟨k, hk⟩ := ne_none h
    obtain ⟨c, _, hc⟩ := h2 k hk
    exact ⟨_, hc⟩
  · simp only [contents, hx, Option.map_some, Option.some.injEq, holds] at hv
    split at hv
    · rename_i h0
      obtain ⟨c, hc, hty, hlt⟩ := hw h0
      rw [hc, List.getElem?_eq_getElem hlt] at hv
      simp only [Option.some.injEq, Prod.mk.injEq] at hv
      have hm : t ∈ ts := by rw [← hv.1]; exact List.getElem_mem hlt
      obtain ⟨k, hk, hke⟩ := setIndex_mem ts t hm
      have hkx : k = x.index.toNat := getElem?_inj hn hke (by rw [List.getElem?_eq_getElem hlt, hv.1])
      unfold getType
      rw [typeIndex_eq, if_pos ⟨by omega, h0⟩, member_eq, if_pos (by omega)]
      simp
    · cases hv

example : getType [7, 8, 9] (⟨1, some ⟨0, 1, 55⟩⟩ : Var Nat) 8 = some 1 ∧
    getType [7, 8, 9] (⟨1, some ⟨0, 1, 55⟩⟩ : Var Nat) 9 = none := by decide

/-- `getCurrentIndex()` names the type of the value held, and is negative exactly when nothing is held. -/
theorem C31_current_index (hn : ts.Nodup) {s : St V} (hr : Reach (step ts moved) safe init s) {i : Nat} {x : Var V}
    (hx : s.vars i = some x) :
    (∀ t v, contents ts s i = some (some (t, v)) → 0 ≤ x.index ∧ ts[x.index.toNat]? = some t) ∧
    (x.index < 0 ↔ contents ts s i = some none) := by
  have hw := (reach_inv hn hr).wf i x hx
  by_cases h0 : 0 ≤ x.index
  · obtain ⟨c, hc, hty, hlt⟩ := hw h0
    have : contents ts s i = some (some (ts[x.index.toNat]'hlt, c.val)) := by
      simp [contents, hx, holds, h0, hc, hlt]
    rw [this]
    refine ⟨?_, ?_⟩
    · intro t v h
      simp only [Option.some.injEq, Prod.mk.injEq] at h
      exact ⟨h0, by rw [List.getElem?_eq_getElem hlt, h.1]⟩
    · constructor
      · intro h; omega
      · intro h; simp at h
  · have : contents ts s i = some none := by simp [contents, hx, holds, h0]
    rw [this]
    exact ⟨fun t v h => by simp at h, ⟨fun _ => rfl, fun _ => by omega⟩⟩

/-- `==` holds exactly when both variants hold a value of the same type and the values compare equal; so a
variant that holds nothing is not even equal to itself. -/
theorem C31_equal_exact (hn : ts.Nodup) {s : St V} (hr : Reach (step ts moved) safe init s) (eq : V → V → Bool)
    {i j : Nat} {x y : Var V} (hx : s.vars i = some x) (hy : s.vars j = some y) :
    equal ts eq x y = true ↔ ∃ t v w, contents ts s i = some (some (t, v)) ∧
      contents ts s j = some (some (t, w)) ∧ eq v w = true := by
  have hwx := (reach_inv hn hr).wf i x hx
  have hwy := (reach_inv hn hr).wf j y hy
  have cx : contents ts s i = some (holds ts x) := by simp [contents, hx]
  have cy : contents ts s j = some (holds ts y) := by simp [contents, hy]
  rw [cx, cy]
  simp only [Option.some.injEq]
  by_cases hx0 : 0 ≤ x.index
  · by_cases hy0 : 0 ≤ y.index
    · obtain ⟨c, hc, hcty, hclt⟩ := hwx hx0
      obtain ⟨d, hd, hdty, hdlt⟩ := hwy hy0
      have ex : holds ts x = some (ts[x.index.toNat]'hclt, c.val) := by simp [holds, hx0, hc, hclt]
      have ey : holds ts y = some (ts[y.index.toNat]'hdlt, d.val) := by simp [holds, hy0, hd, hdlt]
      rw [ex, ey]
      simp only [Option.some.injEq, Prod.mk.injEq]
      by_cases he : x.index = y.index
      · have hl : level ts x.index = some x.index.toNat := by
          have := level_nonneg ts x.index.toNat hclt
          rwa [Int.toNat_of_nonneg hx0] at this
        have : equal ts eq x y = eq c.val d.val := by
          unfold equal
          rw [if_pos ⟨hx0, hy0, he⟩, hl, hc, hd]
        rw [this]
        constructor
        · intro h
          exact ⟨_, c.val, d.val, ⟨rfl, rfl⟩, ⟨by simp [he], rfl⟩, h⟩
        · rintro ⟨t, v, w, ⟨_, rfl⟩, ⟨_, rfl⟩, h⟩
          exact h
      · have : equal ts eq x y = false := by
          unfold equal
          rw [if_neg (fun h => he h.2.2)]
        rw [this]
        constructor
        · intro h; cases h
        · rintro ⟨t, v, w, ⟨h1, _⟩, ⟨h2, _⟩, _⟩
          have := getElem?_inj hn (a := x.index.toNat) (b := y.index.toNat) (t := t)
            (by rw [List.getElem?_eq_getElem hclt, h1]) (by rw [List.getElem?_eq_getElem hdlt, h2])
          omega
    · rw [holds_neg (x := y) (by omega)]
      simp [equal, hy0]
  · rw [holds_neg (x := x) (by omega)]
    simp [equal, hx0]

/-- "Copying" a variant that is not const moves the value out of it: overload resolution picks the forwarding
constructor. -/
theorem C31_copy_nonconst_moves (hn : ts.Nodup) {s : St V} (hr : Reach (step ts moved) safe init s) {i j t : Nat}
    {v : V} (hi : s.vars i = none) (hj : contents ts s j = some (some (t, v))) :
    ∃ s', step ts moved s (.copyVar i j) = .ok s' ∧ contents ts s' i = some (some (t, v)) ∧
      contents ts s' j = some (some (t, moved v)) := by
  have hinv := reach_inv hn hr
  cases hy : s.vars j with
  | none => simp [contents, hy] at hj
  | some y =>
    have h0 : 0 ≤ y.index := by
      apply Classical.byContradiction
      intro h
      simp [contents, hy, holds, h] at hj
    have hij : i ≠ j := by intro e; subst e; rw [hi] at hy; cases hy
    obtain ⟨s1, h1, h2, h3⟩ := construct_ok (moved := moved) hinv hi hy true
    refine ⟨s1, by simp only [step, hi, hy, if_pos h0]; exact h1, ?_, ?_⟩
    · rw [h3, upd_ne _ _ hij, upd_self, hj]
    · rw [h3, upd_self, hj]; simp

/-- So the specification of copying is violated whenever moving changes the source. -/
theorem C31_copy_nonconst_violated (hn : ts.Nodup) {s : St V} (hr : Reach (step ts moved) safe init s) {i j t : Nat}
    {v : V} (hi : s.vars i = none) (hj : contents ts s j = some (some (t, v))) (hv : moved v ≠ v) :
    ∃ s', step ts moved s (.copyVar i j) = .ok s' ∧ contents ts s' ≠ spec ts moved (contents ts s) (.copyVar i j) := by
  obtain ⟨s', h1, h2, h3⟩ := C31_copy_nonconst_moves hn hr hi hj
  refine ⟨s', h1, fun e => ?_⟩
  have hij : j ≠ i := by
    intro e
    subst e
    simp [contents, hi] at hj
  rw [e] at h3
  simp only [spec, upd_ne _ _ hij, hj, Option.some.injEq, Prod.mk.injEq, true_and] at h3
  exact hv h3.symm

example : ∃ s : St Nat, Reach (step [7, 8] (fun _ => 0)) safe init s ∧ (s.vars 1 = none ∧
    contents [7, 8] s 0 = some (some (8, 55))) :=
  let ⟨s, h, e⟩ := Reach.witness (step := step [7, 8] (fun _ => 0)) (pre := safe) (s₀ := (init : St Nat))
    [.ctor 0 8 55] (fun s => (s.vars 1, contents [7, 8] s 0)) (none, some (some (8, 55))) (by decide)
  ⟨s, h, by injection e with h1 h2; exact ⟨h1, h2⟩⟩

/-- Assigning a variant that holds nothing changes nothing: the target keeps its old value. -/
theorem C31_assign_unset_ignored {s : St V} {i j : Nat} {x y : Var V} (hx : s.vars i = some x)
    (hy : s.vars j = some y) (hu : y.index < 0) :
    step ts moved s (.assign i j) = .ok s ∧ step ts moved s (.moveAssign i j) = .ok s := by
  constructor
  · simp only [step, hx, hy]
    rw [if_neg (by omega)]
  · simp only [step, hx, hy]
    rw [if_neg (by omega)]

/-- … which is not what was specified, whenever the target holds a value. -/
theorem C31_assign_unset_violated {s : St V} {i j t : Nat} {v : V} (hi : contents ts s i = some (some (t, v)))
    (hj : contents ts s j = some none) :
    contents ts s ≠ spec ts moved (contents ts s) (.assign i j) := by
  intro e
  have := congrFun e i
  simp only [spec, upd_self, hi, hj] at this
  cases this

example : ∃ s : St Nat, Reach (step [7, 8] id) safe init s ∧ (contents [7, 8] s 0 = some (some (8, 55)) ∧
    contents [7, 8] s 1 = some none) :=
  let ⟨s, h, e⟩ := Reach.witness (step := step [7, 8] id) (pre := safe) (s₀ := (init : St Nat))
    [.ctor 0 8 55, .declare 1] (fun s => (contents [7, 8] s 0, contents [7, 8] s 1))
    (some (some (8, 55)), some none) (by decide)
  ⟨s, h, by injection e with h1 h2; exact ⟨h1, h2⟩⟩

/-- `v.set(*v.get<T>())` reads the value after destroying it: always undefined. -/
theorem C31_set_own_value_ub (hn : ts.Nodup) {s : St V} (hr : Reach (step ts moved) safe init s) {i t : Nat} {v : V}
    (hi : contents ts s i = some (some (t, v))) : step ts moved s (.setFrom i i) = .ub := by
  have hinv := reach_inv hn hr
  cases hx : s.vars i with
  | none => simp [contents, hx] at hi
  | some x =>
    have h0 : 0 ≤ x.index := by
      apply Classical.byContradiction
      intro h
      simp [contents, hx, holds, h] at hi
    obtain ⟨c, hc, hty, hlt⟩ := hinv.wf i x hx h0
    have hl : level ts x.index = some x.index.toNat := by
      have := level_nonneg ts x.index.toNat hlt
      rwa [Int.toNat_of_nonneg h0] at this
    have hlive := hinv.ledger.ownedLive i _ (owner_some hx h0 hc)
    obtain ⟨n, m⟩ := x
    simp only at hc h0 hl hty
    have hd : ¬ Live c.obj (.closed c.obj :: s.log) := by simp [Live]
    simp [step, hx, hc, resetVar, h0, hl, destroyMember, hty, hlive, readMember, hd]

/-- `get<k>()` on a variant that does not hold alternative `k` gives a non-null pointer to something that is not
such an object: reading through it is undefined. -/
theorem C31_get_by_index_ub (hn : ts.Nodup) {s : St V} (hr : Reach (step ts moved) safe init s) {i k : Nat}
    {x : Var V} (hx : s.vars i = some x) (h0 : 0 ≤ x.index) (hk : k < ts.length) (hne : x.index ≠ k) :
    getIndex ts k = some k ∧ step ts moved s (.useIndex i k) = .ub := by
  have hg := getIndex_eq hn hk
  refine ⟨hg, ?_⟩
  obtain ⟨c, hc, hty, hlt⟩ := (reach_inv hn hr).wf i x hx h0
  obtain ⟨n, m⟩ := x
  simp only at hc hty h0 hne
  have : ¬ (c.ty = k) := by omega
  simp [step, hx, hg, readMember, hc, this]

/-- The same for a variant that never held anything. -/
theorem C31_get_by_index_unset_ub (hn : ts.Nodup) {s : St V} {i k : Nat} (hi : s.vars i = none) (hk : k < ts.length) :
    ∃ s', step ts moved s (.declare i) = .ok s' ∧ step ts moved s' (.useIndex i k) = .ub := by
  refine ⟨{ s with vars := upd s.vars i (some fresh) }, by simp only [step, hi], ?_⟩
  simp [step, upd_self, getIndex_eq hn hk, readMember, fresh]

example : ∃ s : St Nat, Reach (step [7, 8] id) safe init s ∧ s.vars 0 = some ⟨1, some ⟨0, 1, 55⟩⟩ :=
  Reach.witness (step := step [7, 8] id) (pre := safe) (s₀ := (init : St Nat))
    [.ctor 0 8 55] (fun s => s.vars 0) (some ⟨1, some ⟨0, 1, 55⟩⟩) (by decide)

namespace Flame
open Own Life.Variant
private abbrev varOps : List (Op Nat) := [.ctor 0 8 55, .declare 1]
private abbrev varSt : St Nat := visit (step [7, 8] (fun _ => 0)) safe init varOps
private theorem var_reach : Reach (step [7, 8] (fun _ => 0)) safe init varSt := .visit _ (by decide +kernel)
example := C31_holds_last_partial (ts := [7, 8]) (moved := fun _ : Nat => 0) (by decide) (.visit varOps (by decide +kernel)) (o := .set 1 7 66)
  (by decide +kernel)
example := C31_current_index (by decide) var_reach (i := 0) rfl
example := C31_equal_exact (by decide) var_reach (· == ·) (i := 0) (j := 1) rfl rfl
example := C31_copy_nonconst_moves (by decide) var_reach (i := 2) (j := 0) (t := 8) (v := 55) rfl (by decide +kernel)
example := C31_assign_unset_ignored (ts := [7, 8]) (moved := fun _ : Nat => 0) (s := varSt) (i := 0) (j := 1) rfl rfl (by decide)
example := C31_set_own_value_ub (by decide) var_reach (i := 0) (t := 8) (v := 55) (by decide +kernel)
example := C31_get_by_index_ub (by decide) var_reach (i := 0) (k := 0) rfl (by decide) (by decide) (by decide)
end Flame

end Flame
