import Verif.Life.ExpectedCom

/-! # C33: `flame_ide::Expected` -/

namespace Flame.Life.ExpectedCom
open Flame.Own

variable {V : Type} {moved : V → V}

structure Inv (s : St V) : Prop where
  held : Held (owner s) s.log
  fresh : ∀ r, .made r ∈ s.log → r < s.next
  wf : ∀ i k m, s.vars i = some ⟨some k, m⟩ → ∃ c, m = some c ∧ c.err = k

theorem inv_init : Inv (init : St V) :=
  ⟨Held.init, by simp [init], by simp [init]⟩

/-- The effect of an operation that respects the bookkeeping. -/
structure Next (s s' : St V) : Prop where
  inv : Inv s'
  fine : Fine (owner s) s.log (owner s') s'.log

theorem Next.refl {s : St V} (h : Inv s) : Next s s := ⟨h, Fine.refl⟩
theorem Next.trans {a b c : St V} (h1 : Next a b) (h2 : Next b c) : Next a c := ⟨h2.inv, h1.fine.trans h2.fine⟩

def TidySt (s s' : St V) : Prop := Tidy (owner s) s.log (owner s') s'.log

theorem owner_congr {s s' : St V} {k : Nat} (h : s'.vars k = s.vars k) : owner s' k = owner s k := by
  simp [owner, h]

theorem ne_none {α : Type} {o : Option α} (h : o ≠ none) : ∃ a, o = some a := by
  cases o with
  | none => exact absurd rfl h
  | some a => exact ⟨a, rfl⟩

/-- Either nothing is stored or a live value of the right kind is. -/
theorem cases_var {s : St V} (h : Inv s) {j : Nat} (hj : s.vars j ≠ none) :
    (∃ m, s.vars j = some ⟨none, m⟩ ∧ read s j = .ok none ∧ owner s j = none) ∨
    (∃ c, s.vars j = some ⟨some c.err, some c⟩ ∧ read s j = .ok (some c) ∧ owner s j = some c.obj ∧
      Live c.obj s.log) := by
  obtain ⟨⟨st, m⟩, hy⟩ := ne_none hj
  cases st with
  | none => exact .inl ⟨m, hy, by simp [read, hy], by simp [owner, hy]⟩
  | some k =>
    obtain ⟨c, rfl, rfl⟩ := h.wf j k m hy
    have ho : owner s j = some c.obj := by simp [owner, hy]
    have hl := h.held.ownedLive j _ ho
    exact .inr ⟨c, hy, by simp [read, hy, hl], ho, hl⟩

theorem destroy_ok {s : St V} (h : Inv s) {i : Nat} {x : Var V} (hx : s.vars i = some x) :
    ∃ log, destroy x s.log = .ok log ∧ Fine (owner s) s.log (upd (owner s) i none) log ∧
      Tidy (owner s) s.log (upd (owner s) i none) log ∧ (∀ r, .made r ∈ log → .made r ∈ s.log) ∧
      (x.state = none → log = s.log) := by
  rcases cases_var h (j := i) (by rw [hx]; simp) with ⟨m, hv, _, ho⟩ | ⟨c, hv, _, ho, hl⟩
  · rw [hx] at hv
    injection hv with hv
    subst hv
    have e : ∀ k, upd (owner s) i none k = owner s k := by
      intro k
      by_cases hk : k = i
      · subst hk; simp [ho]
      · exact upd_ne _ _ hk
    exact ⟨s.log, rfl, Fine.refl.congr e, Tidy.refl.congr e, fun _ h => h, fun _ => rfl⟩
  · rw [hx] at hv
    injection hv with hv
    subst hv
    have := fine_close (l := s.log) ho
    exact ⟨.closed c.obj :: s.log, by simp [destroy, hl], this.1, this.2, fun r hr => by simpa using hr,
      fun e => by simp at e⟩

theorem fresh_inv {s : St V} (h : Inv s) {i : Nat} (hi : s.vars i = none) :
    Next s { s with vars := upd s.vars i (some fresh) } ∧ TidySt s { s with vars := upd s.vars i (some fresh) } := by
  have e : ∀ k, owner ({ s with vars := upd s.vars i (some fresh) } : St V) k = owner s k := by
    intro k
    by_cases hk : k = i
    · subst hk; simp [owner, fresh, hi]
    · exact owner_congr (upd_ne _ _ hk)
  refine ⟨⟨⟨?_, h.fresh, ?_⟩, Fine.refl.congr e⟩, Tidy.refl.congr e⟩
  · have : owner ({ s with vars := upd s.vars i (some fresh) } : St V) = owner s := funext e
    rw [this]; exact h.held
  · intro q k m hq
    by_cases hqi : q = i
    · subst hqi; simp [fresh] at hq
    · exact h.wf q k m (by simpa [upd_ne _ _ hqi] using hq)

theorem assignValue_ok {s : St V} (h : Inv s) {i : Nat} (hi : s.vars i ≠ none) (k : Bool) (v : V) :
    ∃ s', assignValue s i k v = .ok s' ∧ Next s s' ∧ TidySt s s' ∧ (∀ q, q ≠ i → s'.vars q = s.vars q) ∧
      s'.vars i = some ⟨some k, some ⟨s.next, k, v⟩⟩ := by
  obtain ⟨x, hx⟩ := ne_none hi
  obtain ⟨log, h1, h2, h3, h4, _⟩ := destroy_ok h hx
  have f1 : .made s.next ∉ log := fun hm => Nat.lt_irrefl _ (h.fresh _ (h4 _ hm))
  have f2 : .closed s.next ∉ log := fun hc => f1 (closed_made (h2 h.held).1.proper hc)
  have hm := fine_make (own := upd (owner s) i none) (i := i) (by simp) f1 f2
  have e : ∀ q, owner (place s i k v log) q = upd (upd (owner s) i none) i (some s.next) q := by
    intro q
    by_cases hq : q = i
    · subst hq; simp [owner, place]
    · rw [upd_ne _ _ hq, upd_ne _ _ hq]; exact owner_congr (upd_ne _ _ hq)
  have hf := (h2.trans hm.1).congr e
  refine ⟨place s i k v log, by simp only [assignValue, hx, h1], ⟨⟨(hf h.held).1, ?_, ?_⟩, hf⟩,
    (Tidy.trans h2 h3 hm.2).congr e, fun q hq => upd_ne _ _ hq, upd_self _ _ _⟩
  · intro r hr
    rcases List.mem_cons.mp hr with h' | h'
    · injection h' with h'; subst h'; exact Nat.lt_succ_self _
    · exact Nat.lt_succ_of_lt (h.fresh r (h4 r h'))
  · intro q k' m hq
    by_cases hqi : q = i
    · subst hqi
      simp only [place, upd_self, Option.some.injEq, Var.mk.injEq] at hq
      obtain ⟨rfl, rfl⟩ := hq
      exact ⟨_, rfl, rfl⟩
    · exact h.wf q k' m (by simpa [place, upd_ne _ _ hqi] using hq)

theorem use_next {s : St V} (h : Inv s) {j r : Nat} (ho : owner s j = some r) :
    Next s { s with log := .used r :: s.log } ∧ TidySt s { s with log := .used r :: s.log } := by
  have := fine_use (l := s.log) ho
  refine ⟨⟨⟨(this.1 h.held).1, ?_, h.wf⟩, this.1⟩, this.2⟩
  intro q hq
  exact h.fresh q (by simpa using hq)

theorem release_ok {s : St V} (h : Inv s) {j : Nat} {c : Cell V} (hj : s.vars j = some ⟨some c.err, some c⟩)
    (takes : Bool) :
    Next s (release moved s j takes) ∧ (∀ q, q ≠ j → (release moved s j takes).vars q = s.vars q) ∧
      (∃ m, (release moved s j takes).vars j = some ⟨none, m⟩) ∧
      Orphan (owner (release moved s j takes)) (release moved s j takes).log c.obj := by
  have hr : ∃ d : Cell V, release moved s j takes = { s with vars := upd s.vars j (some ⟨none, some d⟩) } :=
    ⟨{ c with val := if takes then moved c.val else c.val }, by simp only [release, hj]⟩
  obtain ⟨d, hr⟩ := hr
  rw [hr]
  have e : ∀ k, owner ({ s with vars := upd s.vars j (some ⟨none, some d⟩) } : St V) k =
      upd (owner s) j none k := by
    intro k
    by_cases hk : k = j
    · subst hk; simp [owner]
    · rw [upd_ne _ _ hk]; exact owner_congr (upd_ne _ _ hk)
  have hf := (fine_forget (own := owner s) (l := s.log) j).congr e
  have ho : owner s j = some c.obj := by simp [owner, hj]
  refine ⟨⟨⟨(hf h.held).1, h.fresh, ?_⟩, hf⟩, fun q hq => upd_ne _ _ hq, ⟨_, upd_self _ _ _⟩, ?_⟩
  · intro q k m hq
    by_cases hqj : q = j
    · subst hqj; simp at hq
    · exact h.wf q k m (by simpa [upd_ne _ _ hqj] using hq)
  · have := orphan_forget h.held ho
    refine ⟨this.1, fun k hk => this.2 k ?_⟩
    rw [← e k]; exact hk

theorem contents_one {s s1 : St V} {i : Nat} {o : Option (Option (Bool × V))}
    (hk : ∀ k, k ≠ i → s1.vars k = s.vars k) (hi : (s1.vars i).map holds = o) :
    contents s1 = upd (contents s) i o := by
  funext k
  by_cases h : k = i
  · subst h; simpa [contents] using hi
  · rw [upd_ne _ _ h]; simp [contents, hk k h]

theorem contents_two {s s1 : St V} {i j : Nat} {o p : Option (Option (Bool × V))}
    (hk : ∀ k, k ≠ i → k ≠ j → s1.vars k = s.vars k) (hij : i ≠ j) (hi : (s1.vars i).map holds = o)
    (hj : (s1.vars j).map holds = p) :
    contents s1 = upd (upd (contents s) i o) j p := by
  funext k
  by_cases h : k = j
  · subst h; simpa [contents] using hj
  · rw [upd_ne _ _ h]
    by_cases h' : k = i
    · subst h'; simpa [contents] using hi
    · rw [upd_ne _ _ h']; simp [contents, hk k h' h]

/-- Copying into an object that holds nothing. -/
theorem assignCopy_ok {s : St V} (h : Inv s) {i j : Nat} (hi : ∃ m, s.vars i = some ⟨none, m⟩)
    (hj : s.vars j ≠ none) :
    ∃ s', assignCopy s i j = .ok s' ∧ Next s s' ∧ TidySt s s' ∧ contents s' = upd (contents s) i (contents s j) := by
  obtain ⟨m, hi⟩ := hi
  obtain ⟨log, h1, _, _, _, h5⟩ := destroy_ok h hi
  have hl := h5 rfl
  subst hl
  rcases cases_var h hj with ⟨m', hv, hr, _⟩ | ⟨c, hv, hr, ho, _⟩
  · refine ⟨s, ?_, Next.refl h, Tidy.refl, ?_⟩
    · have hr' : read ({ s with log := s.log } : St V) j = .ok none := hr
      simp only [assignCopy, hi, h1, hr']
    · have : contents s j = some none := by simp [contents, hv, holds]
      rw [this]
      refine contents_one (fun _ _ => rfl) ?_
      simp [hi, holds]
  · obtain ⟨n1, t1⟩ := use_next h ho
    obtain ⟨s', a1, a2, a3, a4, a5⟩ := assignValue_ok n1.inv (i := i) (by simp [hi]) c.err c.val
    refine ⟨s', ?_, n1.trans a2, Tidy.trans n1.fine t1 a3, ?_⟩
    · have hr' : read ({ s with log := s.log } : St V) j = .ok (some c) := hr
      simp only [assignCopy, hi, h1, hr']
      exact a1
    · have : contents s j = some (some (c.err, c.val)) := by simp [contents, hv, holds]
      rw [this]
      refine contents_one a4 ?_
      simp [a5, holds]

/-- Moving between different objects. -/
theorem assignMove_ok {s : St V} (h : Inv s) {i j : Nat} (hij : i ≠ j) (hi : s.vars i ≠ none) (hj : s.vars j ≠ none) :
    ∃ s', assignMove moved s i j = .ok s' ∧ Next s s' ∧
      ((contents s j = some none ∧ s' = s) ∨
       (∃ c : Cell V, s.vars j = some ⟨some c.err, some c⟩ ∧ contents s j = some (some (c.err, c.val)) ∧
        contents s' = upd (upd (contents s) i (contents s j)) j (some none) ∧
        Orphan (owner s') s'.log c.obj)) := by
  have hji : j ≠ i := fun e => hij e.symm
  rcases cases_var h hj with ⟨m', hv, hr, _⟩ | ⟨c, hv, hr, ho, _⟩
  · obtain ⟨x, hx⟩ := ne_none hi
    exact ⟨s, by simp only [assignMove, hr, hx], Next.refl h, .inl ⟨by simp [contents, hv, holds], rfl⟩⟩
  · obtain ⟨n1, _⟩ := use_next h ho
    obtain ⟨s1, a1, a2, _, a4, a5⟩ := assignValue_ok n1.inv (i := i) hi c.err c.val
    have hv1 : s1.vars j = some ⟨some c.err, some c⟩ := (a4 j hji).trans hv
    obtain ⟨r1, r2, ⟨m, r3⟩, r4⟩ := release_ok (moved := moved) a2.inv hv1 true
    refine ⟨release moved s1 j true, ?_, (n1.trans a2).trans r1, .inr ⟨c, hv, ?_, ?_, r4⟩⟩
    · simp only [assignMove, hr, if_neg hij, a1]
    · simp [contents, hv, holds]
    · refine (contents_two (fun k hk hkj => (r2 k hkj).trans (a4 k hk)) hij
        (o := some (some (c.err, c.val))) (p := some none) (by rw [r2 i hij, a5]; rfl) (by rw [r3]; rfl)).trans ?_
      have : contents s j = some (some (c.err, c.val)) := by simp [contents, hv, holds]
      rw [this]
      rfl

theorem chain_cons {f : St V → Handler → Res (St V × List (Bool × V))} {s s1 s2 : St V} {h : Handler}
    {hs : List Handler} {c cs cs' : List (Bool × V)} (h1 : f s h = .ok (s1, c)) (h2 : chain f s1 hs = .ok (s2, cs))
    (h3 : c ++ cs = cs') : chain f s (h :: hs) = .ok (s2, cs') := by
  simp only [chain, h1, h2, h3]

/-- The calls of a const chain: every matching handler. -/
theorem chainConst_ok {i : Nat} : ∀ (hs : List Handler) {s : St V}, Inv s → s.vars i ≠ none →
    ∃ s', chain (fun s h => handleConst s i h) s hs = .ok (s', match contents s i with
        | some (some (k, v)) => (hs.filter fun h => h.err = k).map fun _ => (k, v)
        | _ => []) ∧ Next s s' ∧ TidySt s s' ∧ s'.vars = s.vars
  | [], s, h, _ => ⟨s, by
      simp only [chain]
      split <;> simp, Next.refl h, Tidy.refl, rfl⟩
  | f :: hs, s, h, hi => by
    rcases cases_var h hi with ⟨m', hv, hr, _⟩ | ⟨c, hv, hr, ho, _⟩
    · obtain ⟨s', g1, g2, g3, g4⟩ := chainConst_ok (i := i) hs h hi
      refine ⟨s', ?_, g2, g3, g4⟩
      have hc : contents s i = some none := by simp [contents, hv, holds]
      rw [hc] at g1
      exact chain_cons (c := []) (by simp only [handleConst, hr]) g1 (by simp [hc])
    · have hc : contents s i = some (some (c.err, c.val)) := by simp [contents, hv, holds]
      by_cases he : c.err = f.err
      · obtain ⟨n1, t1⟩ := use_next h ho
        obtain ⟨s', g1, g2, g3, g4⟩ := chainConst_ok (i := i) hs n1.inv hi
        refine ⟨s', ?_, n1.trans g2, Tidy.trans n1.fine t1 g3, g4⟩
        have hc' : contents ({ s with log := .used c.obj :: s.log } : St V) i = some (some (c.err, c.val)) := hc
        rw [hc'] at g1
        exact chain_cons (c := [(f.err, c.val)]) (by simp only [handleConst, hr, if_pos he]) g1 (by simp [hc, he])
      · obtain ⟨s', g1, g2, g3, g4⟩ := chainConst_ok (i := i) hs h hi
        refine ⟨s', ?_, g2, g3, g4⟩
        rw [hc] at g1
        have he' : ¬ f.err = c.err := fun e => he e.symm
        exact chain_cons (c := []) (by simp only [handleConst, hr, if_neg he]) g1 (by simp [hc, he'])

/-- The calls of a non-const chain: only the first matching handler. -/
theorem chain_ok {i : Nat} : ∀ (hs : List Handler) {s : St V}, Inv s → s.vars i ≠ none →
    ∃ s', chain (fun s h => handle moved s i h) s hs = .ok (s', match contents s i with
        | some (some (k, v)) => if (hs.any fun h => h.err == k) then [(k, v)] else []
        | _ => []) ∧ Next s s' ∧ (∀ q, q ≠ i → s'.vars q = s.vars q) ∧
      contents s' i = some (match contents s i with
        | some (some (k, v)) => if (hs.any fun h => h.err == k) then none else some (k, v)
        | _ => none) ∧
      (isSet s i = false → s' = s) ∧
      (∀ c, s.vars i = some ⟨some c.err, some c⟩ → (hs.any fun h => h.err == c.err) = true →
        Orphan (owner s') s'.log c.obj)
  | [], s, h, hi => by
    refine ⟨s, ?_, Next.refl h, fun _ _ => rfl, ?_, fun _ => rfl, fun c _ e => by simp at e⟩
    · simp only [chain]
      split <;> simp
    · obtain ⟨x, hx⟩ := ne_none hi
      simp only [contents, hx, Option.map_some, List.any_nil]
      cases holds x <;> rfl
  | f :: hs, s, h, hi => by
    rcases cases_var h hi with ⟨m', hv, hr, _⟩ | ⟨c, hv, hr, ho, _⟩
    · obtain ⟨s', g1, g2, g3, g4, g5, g6⟩ := chain_ok (i := i) hs h hi
      have hc : contents s i = some none := by simp [contents, hv, holds]
      refine ⟨s', ?_, g2, g3, ?_, g5, fun c hc' => ?_⟩
      · rw [hc] at g1
        exact chain_cons (c := []) (by simp only [handle, hr]) g1 (by simp [hc])
      · rw [g4, hc]
      · rw [hv] at hc'; simp at hc'
    · have hc : contents s i = some (some (c.err, c.val)) := by simp [contents, hv, holds]
      by_cases he : c.err = f.err
      · obtain ⟨n1, _⟩ := use_next h ho
        have hv1 : ({ s with log := .used c.obj :: s.log } : St V).vars i = some ⟨some c.err, some c⟩ := hv
        obtain ⟨r1, r2, ⟨m, r3⟩, r4⟩ := release_ok (moved := moved) n1.inv hv1 f.takes
        obtain ⟨s', g1, g2, g3, g4, g5, g6⟩ := chain_ok (i := i) hs r1.inv (by rw [r3]; simp)
        have hc' : contents (release moved { s with log := .used c.obj :: s.log } i f.takes) i = some none := by
          simp [contents, r3, holds]
        rw [hc'] at g1 g4
        refine ⟨s', ?_, (n1.trans r1).trans g2, fun q hq => (g3 q hq).trans (r2 q hq), ?_, ?_, ?_⟩
        · exact chain_cons (c := [(f.err, c.val)]) (by simp only [handle, hr, if_pos he]) g1 (by simp [hc, he])
        · rw [g4, hc]
          simp [he]
        · intro e; simp [isSet, hv] at e
        · intro c' hc1 _
          rw [hv] at hc1
          simp only [Option.some.injEq, Var.mk.injEq] at hc1
          have : c = c' := hc1.2
          subst this
          exact (g2.fine r1.inv.held).2 _ r4
      · obtain ⟨s', g1, g2, g3, g4, g5, g6⟩ := chain_ok (i := i) hs h hi
        rw [hc] at g1 g4
        have he' : (f.err == c.err) = false := by
          have : ¬ f.err = c.err := fun e => he e.symm
          simpa using this
        refine ⟨s', ?_, g2, g3, ?_, g5, ?_⟩
        · exact chain_cons (c := []) (by simp only [handle, hr, if_neg he]) g1 (by simp [hc, he'])
        · rw [g4, hc]; simp [he']
        · intro c' hc1 ha
          refine g6 c' hc1 ?_
          rw [hv] at hc1
          simp only [Option.some.injEq, Var.mk.injEq] at hc1
          have : c = c' := hc1.2
          subst this
          simpa [he'] using ha

theorem isSet_false {s : St V} {i : Nat} (hi : s.vars i ≠ none) (h : isSet s i = false) :
    ∃ m, s.vars i = some ⟨none, m⟩ := by
  obtain ⟨⟨st, m⟩, hx⟩ := ne_none hi
  cases st with
  | none => exact ⟨m, hx⟩
  | some k => simp [isSet, hx] at h

theorem step_ok {s : St V} (h : Inv s) {o : Op V} (hp : safe s o) :
    ∃ s', step moved s o = .ok s' ∧ Next s s' ∧ contents s' = spec (contents s) o ∧ (tidy s o → TidySt s s') := by
  obtain ⟨hd, hp⟩ := hp
  cases o with
  | declare i =>
    simp only [declared] at hd
    obtain ⟨n, t⟩ := fresh_inv h hd
    refine ⟨_, by simp only [step, hd], n, ?_, fun _ => t⟩
    refine contents_one (fun k hk => upd_ne _ _ hk) ?_
    simp [holds, fresh]
  | ctor i k v =>
    simp only [declared] at hd
    obtain ⟨n, t⟩ := fresh_inv h hd
    obtain ⟨s1, a1, a2, a3, a4, a5⟩ := assignValue_ok n.inv (i := i) (by simp) k v
    refine ⟨s1, by simp only [step, hd]; exact a1, n.trans a2, ?_, fun _ => Tidy.trans n.fine t a3⟩
    refine contents_one (fun q hq => (a4 q hq).trans (upd_ne _ _ hq)) ?_
    simp [a5, holds]
  | copyCtor i j =>
    obtain ⟨hi, hj⟩ := hd
    obtain ⟨y, hy⟩ := ne_none hj
    have hji : j ≠ i := by intro e; subst e; rw [hi] at hy; cases hy
    obtain ⟨n, t⟩ := fresh_inv h hi
    obtain ⟨s1, a1, a2, a3, a4⟩ := assignCopy_ok n.inv (i := i) (j := j) ⟨none, by simp [fresh]⟩
      (by simp [upd_ne _ _ hji, hy])
    refine ⟨s1, by simp only [step, hi, hy]; exact a1, n.trans a2, ?_, fun _ => Tidy.trans n.fine t a3⟩
    rw [a4]
    have hb : contents ({ s with vars := upd s.vars i (some fresh) } : St V) = upd (contents s) i (some none) := by
      refine contents_one (fun k hk => upd_ne _ _ hk) ?_
      simp [holds, fresh]
    rw [hb]
    simp only [spec, upd_ne _ _ hji]
    funext k
    by_cases hk : k = i
    · subst hk; simp
    · rw [upd_ne _ _ hk, upd_ne _ _ hk, upd_ne _ _ hk]
  | moveCtor i j =>
    obtain ⟨hi, hj⟩ := hd
    obtain ⟨y, hy⟩ := ne_none hj
    have hij : i ≠ j := by intro e; subst e; rw [hi] at hy; cases hy
    have hji : j ≠ i := fun e => hij e.symm
    obtain ⟨n, t⟩ := fresh_inv h hi
    have hb : contents ({ s with vars := upd s.vars i (some fresh) } : St V) = upd (contents s) i (some none) := by
      refine contents_one (fun k hk => upd_ne _ _ hk) ?_
      simp [holds, fresh]
    obtain ⟨s1, a1, a2, a3⟩ := assignMove_ok (moved := moved) n.inv hij (by simp) (by simp [upd_ne _ _ hji, hy])
    refine ⟨s1, by simp only [step, hi, hy]; exact a1, n.trans a2, ?_, ?_⟩
    · rcases a3 with ⟨e1, e2⟩ | ⟨c, _, e1, e2, _⟩
      · rw [hb, upd_ne _ _ hji] at e1
        rw [e2, hb]
        simp only [spec, e1]
        funext k
        by_cases hk : k = j
        · subst hk; simp [upd_ne _ _ hji, e1]
        · rw [upd_ne _ _ hk]
      · rw [e2, hb]
        simp only [spec, upd_ne _ _ hji]
        funext k
        by_cases hk : k = j
        · subst hk; simp
        · rw [upd_ne _ _ hk, upd_ne _ _ hk]
          by_cases hk' : k = i
          · subst hk'; simp
          · rw [upd_ne _ _ hk', upd_ne _ _ hk', upd_ne _ _ hk']
    · intro ht
      obtain ⟨m, hm⟩ := isSet_false hj ht.2
      rcases a3 with ⟨_, e2⟩ | ⟨c, e0, _⟩
      · rw [e2]; exact t
      · have : s.vars j = some ⟨some c.err, some c⟩ := (upd_ne _ _ hji).symm.trans e0
        rw [hm] at this; simp at this
  | set i k v =>
    simp only [declared] at hd
    obtain ⟨s1, a1, a2, a3, a4, a5⟩ := assignValue_ok h hd k v
    refine ⟨s1, a1, a2, ?_, fun _ => a3⟩
    refine contents_one a4 ?_
    simp [a5, holds]
  | assign i j =>
    obtain ⟨hi, hj⟩ := hd
    obtain ⟨s1, a1, a2, a3, a4⟩ := assignCopy_ok h (isSet_false hi hp) hj
    exact ⟨s1, a1, a2, a4, fun _ => a3⟩
  | moveAssign i j =>
    obtain ⟨hi, hj⟩ := hd
    by_cases hij : i = j
    · subst hij
      rcases hp with hp | hp
      · exact absurd rfl hp
      · obtain ⟨m, hm⟩ := isSet_false hi hp
        refine ⟨s, ?_, Next.refl h, ?_, fun _ => Tidy.refl⟩
        · simp [step, assignMove, read, hm]
        · simp [spec, contents, hm, holds]
    · obtain ⟨s1, a1, a2, a3⟩ := assignMove_ok (moved := moved) h hij hi hj
      refine ⟨s1, a1, a2, ?_, ?_⟩
      · rcases a3 with ⟨e1, e2⟩ | ⟨c, _, e1, e2, _⟩
        · rw [e2]; simp [spec, e1]
        · rw [e2]; simp [spec, e1]
      · intro ht
        obtain ⟨m, hm⟩ := isSet_false hj ht.2
        rcases a3 with ⟨_, e2⟩ | ⟨c, e0, _⟩
        · rw [e2]; exact Tidy.refl
        · rw [hm] at e0; simp at e0
  | handlers i hs =>
    simp only [declared] at hd
    obtain ⟨s1, a1, a2, a3, a4, a5, _⟩ := chain_ok (moved := moved) (i := i) hs h hd
    refine ⟨s1, by simp only [step, a1], a2, ?_, ?_⟩
    · rw [contents_one (s := s) (s1 := s1) (o := contents s1 i) a3 rfl, a4]
      obtain ⟨x, hx⟩ := ne_none hd
      have hc : contents s i = some (holds x) := by simp [contents, hx]
      rw [hc]
      simp only [spec, hc, anyMatch]
      cases hh : holds x with
      | none =>
        simp only [Bool.false_eq_true, if_false]
        funext k
        by_cases hk : k = i
        · subst hk; rw [upd_self, hc, hh]
        · exact upd_ne _ _ hk
      | some p =>
        by_cases hm : (hs.any fun h => h.err == p.1) = true
        · simp only [hm, if_true]
        · simp only [hm]
          funext k
          by_cases hk : k = i
          · subst hk; simp [hc, hh]
          · exact upd_ne _ _ hk
    · intro ht
      rcases ht.2 with e | e
      · rw [a5 e]; exact Tidy.refl
      · subst e
        simp only [chain] at a1
        injection a1 with a1
        injection a1 with a1 _
        rw [← a1]; exact Tidy.refl
  | handlersConst i hs =>
    simp only [declared] at hd
    obtain ⟨s1, a1, a2, a3, a4⟩ := chainConst_ok (i := i) hs h hd
    refine ⟨s1, by simp only [step, a1], a2, ?_, fun _ => a3⟩
    simp only [spec]
    unfold contents
    rw [a4]
  | drop i =>
    simp only [declared] at hd
    obtain ⟨x, hx⟩ := ne_none hd
    obtain ⟨log, h1, h2, h3, h4, _⟩ := destroy_ok h hx
    have e : ∀ q, owner ({ s with vars := upd s.vars i none, log := log } : St V) q = upd (owner s) i none q := by
      intro q
      by_cases hq : q = i
      · subst hq; simp [owner]
      · rw [upd_ne _ _ hq]; exact owner_congr (upd_ne _ _ hq)
    have hf := h2.congr e
    refine ⟨{ s with vars := upd s.vars i none, log := log }, by simp only [step, hx, h1],
      ⟨⟨(hf h.held).1, fun r hr => h.fresh r (h4 r hr), ?_⟩, hf⟩, ?_, fun _ => h3.congr e⟩
    · intro q k m hq
      by_cases hqi : q = i
      · subst hqi; simp at hq
      · exact h.wf q k m (by simpa [upd_ne _ _ hqi] using hq)
    · refine contents_one (fun k hk => upd_ne _ _ hk) ?_
      simp

theorem reach_inv {s : St V} (hr : Reach (step moved) safe init s) : Inv s := by
  refine Reach.inv inv_init ?_ hr
  intro s o s' h hp he
  obtain ⟨t, ht, hn, _⟩ := step_ok (moved := moved) h hp
  rw [ht] at he
  injection he with he
  subst he
  exact hn.inv

end Flame.Life.ExpectedCom

namespace Flame
open Own Life Life.ExpectedCom

variable {V : Type} {moved : V → V}

/-- Over every history that avoids copy assignment to an object holding a value (and self-move), nothing undefined
happens and every object holds exactly what was last assigned.

Partial: the excluded operations are always wrong, see `C33_copy_assign_ub`, `C33_assign_unknown_ub`,
`C33_self_move_ub`. -/
theorem C33_holds_last_partial {s : St V} (hr : Reach (step moved) safe init s) {o : Op V} (ho : safe s o) :
    ∃ s', step moved s o = .ok s' ∧ contents s' = spec (contents s) o := by
  obtain ⟨s', h1, _, h2, _⟩ := Life.ExpectedCom.step_ok (moved := moved) (Life.ExpectedCom.reach_inv hr) ho
  exact ⟨s', h1, h2⟩

example : runPre (step (fun _ => 0)) safe (init : St Nat)
    [.declare 0, .ctor 1 false 55, .set 0 true 66, .copyCtor 2 0, .moveAssign 0 1, .handlers 0 [⟨false, true⟩, ⟨true, true⟩],
     .handlersConst 2 [⟨true, false⟩], .drop 0, .drop 1, .drop 2] ≠ none := by decide

/-- Exactly the matching handlers are called with the stored value: on a const object every matching one, on a
non-const object only the first (it uses the value up). -/
theorem C33_one_handler {s : St V} (hr : Reach (step moved) safe init s) {i : Nat} {o : Option (Bool × V)}
    (hi : contents s i = some o) (hs : List Handler) :
    (∃ s', chain (fun s h => handle moved s i h) s hs = .ok (s', match o with
      | some (k, v) => if (hs.any fun h => h.err == k) then [(k, v)] else []
      | none => [])) ∧
    (∃ s', chain (fun s h => handleConst s i h) s hs = .ok (s', match o with
      | some (k, v) => (hs.filter fun h => h.err = k).map fun _ => (k, v)
      | none => [])) := by
  have hinv := Life.ExpectedCom.reach_inv hr
  have hd : s.vars i ≠ none := by
    intro e
    simp [contents, e] at hi
  constructor
  · obtain ⟨s', h, _⟩ := Life.ExpectedCom.chain_ok (moved := moved) (i := i) hs hinv hd
    rw [hi] at h
    refine ⟨s', h.trans ?_⟩
    cases o <;> rfl
  · obtain ⟨s', h, _⟩ := chainConst_ok (i := i) hs hinv hd
    rw [hi] at h
    refine ⟨s', h.trans ?_⟩
    cases o <;> rfl

/-- With one handler of each kind, in either order, exactly one is called if something is stored. -/
theorem C33_exactly_one {s : St V} (hr : Reach (step moved) safe init s) {i : Nat} {k : Bool} {v : V}
    (hi : contents s i = some (some (k, v))) (a b : Bool) :
    ∃ s' s'', chain (fun s h => handle moved s i h) s [⟨false, a⟩, ⟨true, b⟩] = .ok (s', [(k, v)]) ∧
      chain (fun s h => handleConst s i h) s [⟨false, a⟩, ⟨true, b⟩] = .ok (s'', [(k, v)]) := by
  obtain ⟨⟨s', h1⟩, s'', h2⟩ := C33_one_handler hr hi [⟨false, a⟩, ⟨true, b⟩]
  refine ⟨s', s'', h1.trans ?_, h2.trans ?_⟩ <;> cases k <;> rfl

/-- No value is destroyed twice or used after destruction over safe histories. -/
theorem C33_no_double_destroy_partial {s : St V} (hr : Reach (step moved) safe init s) :
    Proper s.log ∧ ∀ r, s.log.count (.closed r) ≤ 1 :=
  have h := (Life.ExpectedCom.reach_inv hr).held.proper
  ⟨h, fun r => h.closed_le_one r⟩

/-- If in addition nothing is ever moved or handed to a non-const handler, nothing leaks: once all objects are
gone every value was destroyed exactly once.

Partial: moves and non-const handlers always leak, see `C33_move_leaks`, `C33_handler_leaks`. -/
theorem C33_no_leak_partial {s : St V} (hr : Reach (step moved) tidy init s) (hg : ∀ i, s.vars i = none) :
    ReleasedOnce s.log := by
  have h : Life.ExpectedCom.Inv s ∧ ∀ r, ¬ Orphan (owner s) s.log r := by
    refine Reach.inv (P := fun s => Life.ExpectedCom.Inv s ∧ ∀ r, ¬ Orphan (owner s) s.log r) ⟨inv_init, ?_⟩ ?_ hr
    · intro r hr
      simp [Orphan, Live, init] at hr
    · intro s o s' ⟨h1, h2⟩ hp he
      obtain ⟨t, ht, hn, _, htd⟩ := Life.ExpectedCom.step_ok (moved := moved) h1 hp.1
      rw [ht] at he
      injection he with he
      subst he
      exact ⟨hn.inv, fun r hr => h2 r (htd hp h1.held r hr)⟩
  exact (h.1.held.ledger h.2).releasedOnce fun i => by simp [owner, hg i]

example : ∃ s : St Nat, Reach (step id) tidy init s ∧ (s.vars 0 = none ∧ s.log = [.closed 1, .made 1, .closed 0, .made 0]) :=
  let ⟨s, h, e⟩ := Reach.witness (step := step id) (pre := tidy) (s₀ := (init : St Nat))
    [.ctor 0 false 5, .set 0 true 6, .drop 0] (fun s => (s.vars 0, s.log))
    (none, [.closed 1, .made 1, .closed 0, .made 0]) (by decide)
  ⟨s, h, by injection e with h1 h2; exact ⟨h1, h2⟩⟩

/-- Copy assignment between two objects that both hold values (or of one to itself) destroys the old value twice
(or reads a destroyed one): always undefined. -/
theorem C33_copy_assign_ub {s : St V} (hr : Reach (step moved) safe init s) {i j : Nat} (hi : isSet s i = true)
    (hj : isSet s j = true) : step moved s (.assign i j) = .ub := by
  have hinv := Life.ExpectedCom.reach_inv hr
  have key : ∀ q, isSet s q = true → ∃ c, s.vars q = some ⟨some c.err, some c⟩ ∧ Live c.obj s.log := by
    intro q hq
    have hne : s.vars q ≠ none := by
      intro e; simp [isSet, e] at hq
    rcases cases_var hinv hne with ⟨m, hv, _⟩ | ⟨c, hv, _, _, hl⟩
    · simp [isSet, hv] at hq
    · exact ⟨c, hv, hl⟩
  obtain ⟨c, hc, hcl⟩ := key i hi
  obtain ⟨d, hd, hdl⟩ := key j hj
  have hdead : ¬ Live c.obj (.closed c.obj :: s.log) := by simp [Live]
  by_cases hij : i = j
  · subst hij
    rw [hc] at hd
    simp only [Option.some.injEq, Var.mk.injEq] at hd
    simp [step, assignCopy, hc, destroy, hcl, ExpectedCom.read, hdead]
  · have hd1 : Live d.obj (.closed c.obj :: s.log) := by
      refine ⟨List.mem_cons_of_mem _ hdl.1, ?_⟩
      intro hm
      rcases List.mem_cons.mp hm with h' | h'
      · injection h' with h'
        exact hij (hinv.held.unique i j c.obj (by simp [owner, hc]) (by simp [owner, hd, h']))
      · exact hdl.2 h'
    have hdead' : ¬ Live c.obj (.used d.obj :: .closed c.obj :: s.log) := by simp [Live]
    simp [step, assignCopy, hc, destroy, hcl, ExpectedCom.read, hd, hd1, assignValue, hdead']

/-- Copy assignment of an object holding nothing to one holding a value destroys that value but still claims to hold
it: the target's destructor, or its next assignment, destroys it again. -/
theorem C33_assign_unknown_ub {s : St V} (hr : Reach (step moved) safe init s) {i j : Nat} (hi : isSet s i = true)
    (hj : contents s j = some none) :
    ∃ s', step moved s (.assign i j) = .ok s' ∧ contents s' i ≠ some none ∧ step moved s' (.drop i) = .ub ∧
      ∀ k v, step moved s' (.set i k v) = .ub := by
  have hinv := Life.ExpectedCom.reach_inv hr
  have hne : s.vars i ≠ none := by
    intro e; simp [isSet, e] at hi
  have hnej : s.vars j ≠ none := by
    intro e; simp [contents, e] at hj
  rcases cases_var hinv hne with ⟨m, hv, _⟩ | ⟨c, hv, _, _, hl⟩
  · simp [isSet, hv] at hi
  · rcases cases_var hinv hnej with ⟨m, hw, _⟩ | ⟨d, hw, _⟩
    · have hdead : ¬ Live c.obj (.closed c.obj :: s.log) := by simp [Live]
      refine ⟨{ s with log := .closed c.obj :: s.log }, ?_, ?_, ?_, ?_⟩
      · simp [step, assignCopy, hv, destroy, hl, ExpectedCom.read, hw]
      · simp [contents, hv, holds]
      · simp [step, hv, destroy, hdead]
      · intro k v
        simp [step, assignValue, hv, destroy, hdead]
    · simp [contents, hw, holds] at hj

/-- Moving an object that holds a value onto itself is undefined. -/
theorem C33_self_move_ub {s : St V} (hr : Reach (step moved) safe init s) {i : Nat} (hi : isSet s i = true) :
    step moved s (.moveAssign i i) = .ub := by
  have hinv := Life.ExpectedCom.reach_inv hr
  have hne : s.vars i ≠ none := by
    intro e; simp [isSet, e] at hi
  rcases cases_var hinv hne with ⟨m, hv, _⟩ | ⟨c, hv, hrd, _, hl⟩
  · simp [isSet, hv] at hi
  · simp [step, assignMove, hrd]

/-- A forgotten value stays forgotten in every safe continuation. -/
theorem Life.ExpectedCom.orphan_forever {s t : St V} (h : Life.ExpectedCom.Inv s)
    (hr : Reach (step moved) safe s t) {r : Nat} (ho : Orphan (owner s) s.log r) :
    .made r ∈ t.log ∧ t.log.count (.closed r) = 0 := by
  have : Life.ExpectedCom.Inv t ∧ Orphan (owner t) t.log r := by
    refine Reach.inv (P := fun s => Life.ExpectedCom.Inv s ∧ Orphan (owner s) s.log r) ⟨h, ho⟩ ?_ hr
    intro s o s' ⟨h1, h2⟩ hp he
    obtain ⟨t, ht, hn, _⟩ := Life.ExpectedCom.step_ok (moved := moved) h1 hp
    rw [ht] at he
    injection he with he
    subst he
    exact ⟨hn.inv, (hn.fine h1.held).2 r h2⟩
  exact this.2.not_closed

/-- Moving out of an object (assignment between different objects, or construction) leaks its value: it is never
destroyed, whatever safe operations follow. -/
theorem C33_move_leaks {s : St V} (hr : Reach (step moved) safe init s) {i j : Nat} (hij : i ≠ j)
    (hj : isSet s j = true) :
    ∃ r, .made r ∈ s.log ∧
      (s.vars i ≠ none → ∃ s', step moved s (.moveAssign i j) = .ok s' ∧
        ∀ t, Reach (step moved) safe s' t → .made r ∈ t.log ∧ t.log.count (.closed r) = 0) ∧
      (s.vars i = none → ∃ s', step moved s (.moveCtor i j) = .ok s' ∧
        ∀ t, Reach (step moved) safe s' t → .made r ∈ t.log ∧ t.log.count (.closed r) = 0) := by
  have hinv := Life.ExpectedCom.reach_inv hr
  have hne : s.vars j ≠ none := by
    intro e; simp [isSet, e] at hj
  have hji : j ≠ i := fun e => hij e.symm
  rcases cases_var hinv hne with ⟨m, hv, _⟩ | ⟨c, hv, _, _, hl⟩
  · simp [isSet, hv] at hj
  · refine ⟨c.obj, hl.1, fun hi => ?_, fun hi => ?_⟩
    · obtain ⟨s', h1, h2, h3⟩ := assignMove_ok (moved := moved) hinv hij hi hne
      refine ⟨s', h1, fun t ht => ?_⟩
      rcases h3 with ⟨e, _⟩ | ⟨d, e1, _, _, e2⟩
      · simp [contents, hv, holds] at e
      · rw [hv] at e1
        simp only [Option.some.injEq, Var.mk.injEq] at e1
        rw [e1.2]
        exact Life.ExpectedCom.orphan_forever h2.inv ht e2
    · obtain ⟨n, _⟩ := Life.ExpectedCom.fresh_inv hinv hi
      have hv' : (upd s.vars i (some fresh)) j = some ⟨some c.err, some c⟩ := (upd_ne _ _ hji).trans hv
      obtain ⟨s', h1, h2, h3⟩ := assignMove_ok (moved := moved) n.inv hij (by simp) (by simp [hv'])
      refine ⟨s', by simp only [step, hi, hv]; exact h1, fun t ht => ?_⟩
      rcases h3 with ⟨e, _⟩ | ⟨d, e1, _, _, e2⟩
      · simp [contents, hv', holds] at e
      · replace e1 := hv'.symm.trans e1
        simp only [Option.some.injEq, Var.mk.injEq] at e1
        rw [e1.2]
        exact Life.ExpectedCom.orphan_forever h2.inv ht e2

/-- Handing the value to a matching non-const handler leaks it, even if the handler only looks at it. -/
theorem C33_handler_leaks {s : St V} (hr : Reach (step moved) safe init s) {i : Nat} {k : Bool} {v : V}
    (hi : contents s i = some (some (k, v))) (takes : Bool) :
    ∃ r s', .made r ∈ s.log ∧ step moved s (.handlers i [⟨k, takes⟩]) = .ok s' ∧
      ∀ t, Reach (step moved) safe s' t → .made r ∈ t.log ∧ t.log.count (.closed r) = 0 := by
  have hinv := Life.ExpectedCom.reach_inv hr
  have hne : s.vars i ≠ none := by
    intro e; simp [contents, e] at hi
  rcases cases_var hinv hne with ⟨m, hv, _⟩ | ⟨c, hv, _, _, hl⟩
  · simp [contents, hv, holds] at hi
  · obtain ⟨s', h1, h2, _, _, _, h6⟩ := Life.ExpectedCom.chain_ok (moved := moved) (i := i) [⟨k, takes⟩] hinv hne
    have hk : c.err = k := by
      simp only [contents, hv, Option.map_some, holds, Option.some.injEq, Prod.mk.injEq] at hi
      exact hi.1
    refine ⟨c.obj, s', hl.1, by simp only [step, h1], fun t ht => ?_⟩
    exact Life.ExpectedCom.orphan_forever h2.inv ht (h6 c hv (by simp [hk]))

example : ∃ s : St Nat, Reach (step id) safe init s ∧ (isSet s 0 = true ∧ isSet s 1 = true ∧ isSet s 2 = false ∧
    s.vars 0 = some ⟨some false, some ⟨0, false, 5⟩⟩ ∧ s.vars 3 = none) :=
  let ⟨s, h, e⟩ := Reach.witness (step := step id) (pre := safe) (s₀ := (init : St Nat))
    [.ctor 0 false 5, .ctor 1 true 7, .declare 2] (fun s => ([isSet s 0, isSet s 1, isSet s 2, (s.vars 3).isNone], s.vars 0))
    ([true, true, false, true], some ⟨some false, some ⟨0, false, 5⟩⟩) (by decide)
  ⟨s, h, by simp at e; simp [e]⟩

/-! The theorems at concrete states. -/

/-- A value in 0, an error in 1, nothing in 2. -/
def Life.ExpectedCom.exState : St Nat := visit (step id) safe init [.ctor 0 false 5, .ctor 1 true 7, .declare 2]

theorem Life.ExpectedCom.exState_reach : Reach (step id) safe init exState := .visit _ (by decide)

example := C33_one_handler exState_reach (i := 1) (by rfl) [⟨false, true⟩, ⟨true, false⟩, ⟨true, true⟩]
example := C33_exactly_one exState_reach (i := 1) (k := true) (v := 7) rfl true false
example := C33_no_double_destroy_partial exState_reach
example := C33_copy_assign_ub exState_reach (i := 0) (j := 1) rfl rfl
example := C33_assign_unknown_ub exState_reach (i := 0) (j := 2) rfl rfl
example := C33_self_move_ub exState_reach (i := 0) rfl
example := C33_move_leaks exState_reach (i := 0) (j := 1) (by decide) rfl

end Flame
