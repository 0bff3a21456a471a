import Verif.Life.Optional

/-! # C32: `templates::Optional` -/

namespace Flame.Life.Optional
open Flame.Own

variable {V : Type} {moved : V → V}

structure Inv (s : St V) : Prop where
  held : Held (owner s) s.log
  fresh : ∀ r, .made r ∈ s.log → r < s.next
  wf : ∀ i m, s.vars i = some ⟨true, m⟩ → ∃ c, m = some c

theorem inv_init : Inv (init : St V) := ⟨Held.init, by simp [init], by simp [init]⟩

structure Next (s s' : St V) : Prop where
  inv : Inv s'
  fine : Fine (owner s) s.log (owner s') s'.log

theorem Next.refl {s : St V} (h : Inv s) : Next s s := ⟨h, Fine.refl⟩
theorem Next.trans {a b c : St V} (h1 : Next a b) (h2 : Next b c) : Next a c := ⟨h2.inv, h1.fine.trans h2.fine⟩

def TidySt (s s' : St V) : Prop := Tidy (owner s) s.log (owner s') s'.log

theorem owner_congr {s s' : St V} {k : Nat} (h : s'.vars k = s.vars k) : owner s' k = owner s k := by
  simp [owner, h]

theorem ne_none {α : Type} {o : Option α} (h : o ≠ none) : ∃ a, o = some a := by
  cases o with
  | none => exact absurd rfl h
  | some a => exact ⟨a, rfl⟩

theorem cases_var {s : St V} (h : Inv s) {j : Nat} (hj : s.vars j ≠ none) :
    (∃ m, s.vars j = some ⟨false, m⟩ ∧ owner s j = none ∧ contents s j = some none) ∨
    (∃ c, s.vars j = some ⟨true, some c⟩ ∧ owner s j = some c.obj ∧ Live c.obj s.log ∧
      contents s j = some (some c.val)) := by
  obtain ⟨⟨f, m⟩, hy⟩ := ne_none hj
  cases f with
  | false => exact .inl ⟨m, hy, by simp [owner, hy], by simp [contents, hy, holds]⟩
  | true =>
    obtain ⟨c, rfl⟩ := h.wf j m hy
    have ho : owner s j = some c.obj := by simp [owner, hy]
    exact .inr ⟨c, hy, ho, h.held.ownedLive j _ ho, by simp [contents, hy, holds]⟩

theorem contents_one {s s1 : St V} {i : Nat} {o : Option (Option V)}
    (hk : ∀ k, k ≠ i → s1.vars k = s.vars k) (hi : (s1.vars i).map holds = o) :
    contents s1 = upd (contents s) i o := by
  funext k
  by_cases h : k = i
  · subst h; simpa [contents] using hi
  · rw [upd_ne _ _ h]; simp [contents, hk k h]

theorem fresh_inv {s : St V} (h : Inv s) {i : Nat} (hi : s.vars i = none) :
    Next s { s with vars := upd s.vars i (some fresh) } ∧ TidySt s { s with vars := upd s.vars i (some fresh) } := by
  have e : ∀ k, owner ({ s with vars := upd s.vars i (some fresh) } : St V) k = owner s k := by
    intro k
    by_cases hk : k = i
    · subst hk; simp [owner, fresh, hi]
    · exact owner_congr (upd_ne _ _ hk)
  refine ⟨⟨⟨?_, h.fresh, ?_⟩, Fine.refl.congr e⟩, Tidy.refl.congr e⟩
  · have : owner ({ s with vars := upd s.vars i (some fresh) } : St V) = owner s := funext e
    rw [this]; exact h.held
  · intro q m hq
    by_cases hqi : q = i
    · subst hqi; simp [fresh] at hq
    · exact h.wf q m (by simpa [upd_ne _ _ hqi] using hq)

theorem place_wf {s : St V} (h : Inv s) (i : Nat) (f : Bool) (v : V) :
    ∀ q m, (place s i f v).vars q = some ⟨true, m⟩ → ∃ c, m = some c := by
  intro q m hq
  by_cases hqi : q = i
  · subst hqi
    simp only [place, upd_self, Option.some.injEq, Var.mk.injEq] at hq
    exact ⟨_, hq.2.symm⟩
  · exact h.wf q m (by simpa [place, upd_ne _ _ hqi] using hq)

theorem place_fresh {s : St V} (h : Inv s) (i : Nat) (f : Bool) (v : V) :
    ∀ r, .made r ∈ (place s i f v).log → r < (place s i f v).next := by
  intro r hr
  rcases List.mem_cons.mp hr with h' | h'
  · injection h' with h'; subst h'; exact Nat.lt_succ_self _
  · exact Nat.lt_succ_of_lt (h.fresh r h')

theorem notMade {s : St V} (h : Inv s) : .made s.next ∉ s.log ∧ .closed s.next ∉ s.log := by
  have f1 : .made s.next ∉ s.log := fun hm => Nat.lt_irrefl _ (h.fresh _ hm)
  exact ⟨f1, fun hc => f1 (closed_made h.held.proper hc)⟩

/-- Placement new in an object that owns nothing, which is then filled. -/
theorem place_ok {s : St V} (h : Inv s) {i : Nat} (ho : owner s i = none) (v : V) :
    Next s (place s i true v) ∧ TidySt s (place s i true v) := by
  obtain ⟨f1, f2⟩ := notMade h
  have hm := fine_make (i := i) ho f1 f2
  have e : ∀ q, owner (place s i true v) q = upd (owner s) i (some s.next) q := by
    intro q
    by_cases hq : q = i
    · subst hq; simp [owner, place]
    · rw [upd_ne _ _ hq]; exact owner_congr (upd_ne _ _ hq)
  have hf := hm.1.congr e
  exact ⟨⟨⟨(hf h.held).1, place_fresh h i true v, place_wf h i true v⟩, hf⟩, hm.2.congr e⟩

/-- An object nobody is responsible for comes into existence. -/
theorem fine_stray {own : Nat → Option Nat} {l : List Ev} {r : Nat} (h1 : .made r ∉ l) (h2 : .closed r ∉ l) :
    Fine own l own (.made r :: l) ∧ (Held own l → Orphan own (.made r :: l) r) := by
  have live : ∀ q, Live q l → Live q (.made r :: l) := fun q hq =>
    ⟨List.mem_cons_of_mem _ hq.1, by simpa using hq.2⟩
  refine ⟨fun h => ⟨⟨⟨h1, h2, h.proper⟩, fun i q hi => live q (h.ownedLive i q hi), h.unique⟩,
    fun q hq => ⟨live q hq.1, hq.2⟩⟩, fun h => ⟨⟨by simp, by simpa using h2⟩, fun i hi => h1 (h.ownedLive i r hi).1⟩⟩

/-- `init()`. -/
theorem make_ok {s : St V} (h : Inv s) {i : Nat} {x : Var V} (hx : s.vars i = some x) (v : V) :
    Next s (place s i x.fill v) ∧
      (x.fill = false → Orphan (owner (place s i x.fill v)) (place s i x.fill v).log s.next) ∧
      (∀ r, owner s i = some r → Orphan (owner (place s i x.fill v)) (place s i x.fill v).log r) := by
  obtain ⟨f1, f2⟩ := notMade h
  obtain ⟨f, m⟩ := x
  cases f with
  | false =>
    have e : ∀ q, owner (place s i false v) q = owner s q := by
      intro q
      by_cases hq : q = i
      · subst hq; simp [owner, place, hx]
      · exact owner_congr (upd_ne _ _ hq)
    have e' : owner (place s i false v) = owner s := funext e
    have hs := fine_stray (own := owner s) f1 f2
    have hf := hs.1.congr e
    refine ⟨⟨⟨(hf h.held).1, place_fresh h i false v, place_wf h i false v⟩, hf⟩, fun _ => ?_, fun r hr => ?_⟩
    · show Orphan (owner (place s i false v)) _ _
      rw [e']; exact hs.2 h.held
    · simp [owner, hx] at hr
  | true =>
    obtain ⟨c, rfl⟩ := h.wf i m hx
    have ho : owner s i = some c.obj := by simp [owner, hx]
    have e : ∀ q, owner (place s i true v) q = upd (upd (owner s) i none) i (some s.next) q := by
      intro q
      by_cases hq : q = i
      · subst hq; simp [owner, place]
      · rw [upd_ne _ _ hq, upd_ne _ _ hq]; exact owner_congr (upd_ne _ _ hq)
    have hg := fine_forget (own := owner s) (l := s.log) i
    have hm := fine_make (own := upd (owner s) i none) (i := i) (by simp) f1 f2
    have hf := (hg.trans hm.1).congr e
    refine ⟨⟨⟨(hf h.held).1, place_fresh h i true v, place_wf h i true v⟩, hf⟩, fun e => by simp at e,
      fun r hr => ?_⟩
    have h1 := orphan_forget h.held hr
    have h2 := (hm.1 (hg h.held).1).2 r h1
    have e' : owner (place s i true v) = upd (upd (owner s) i none) i (some s.next) := funext e
    show Orphan (owner (place s i true v)) _ _
    rw [e']; exact h2

theorem use_next {s : St V} (h : Inv s) {j r : Nat} (ho : owner s j = some r) :
    Next s { s with log := .used r :: s.log } ∧ TidySt s { s with log := .used r :: s.log } := by
  have := fine_use (l := s.log) ho
  refine ⟨⟨⟨(this.1 h.held).1, ?_, h.wf⟩, this.1⟩, this.2⟩
  intro q hq
  exact h.fresh q (by simpa using hq)

theorem write_ok {s : St V} (h : Inv s) {i : Nat} {c : Cell V} (hi : s.vars i = some ⟨true, some c⟩) (v : V) :
    ∃ s', write s i v = .ok s' ∧ Next s s' ∧ TidySt s s' ∧ (∀ q, q ≠ i → s'.vars q = s.vars q) ∧
      s'.vars i = some ⟨true, some ⟨c.obj, v⟩⟩ := by
  have ho : owner s i = some c.obj := by simp [owner, hi]
  have hl := h.held.ownedLive i _ ho
  have e : ∀ q, owner ({ s with vars := upd s.vars i (some ⟨true, some ⟨c.obj, v⟩⟩), log := .used c.obj :: s.log } : St V) q
      = owner s q := by
    intro q
    by_cases hq : q = i
    · subst hq; simp [owner, hi]
    · exact owner_congr (upd_ne _ _ hq)
  have hu := fine_use (l := s.log) ho
  have hf := hu.1.congr e
  refine ⟨{ s with vars := upd s.vars i (some ⟨true, some ⟨c.obj, v⟩⟩), log := .used c.obj :: s.log },
    by simp [write, hi, hl], ⟨⟨(hf h.held).1, ?_, ?_⟩, hf⟩, hu.2.congr e, fun q hq => upd_ne _ _ hq, upd_self _ _ _⟩
  · intro q hq
    exact h.fresh q (by simpa using hq)
  · intro q m hq
    by_cases hqi : q = i
    · subst hqi
      simp only [upd_self, Option.some.injEq, Var.mk.injEq] at hq
      exact ⟨_, hq.2.symm⟩
    · exact h.wf q m (by simpa [upd_ne _ _ hqi] using hq)

theorem assignValue_ok {s : St V} (h : Inv s) {i : Nat} (hi : s.vars i ≠ none) (v : V) :
    ∃ s', assignValue s i v = .ok s' ∧ Next s s' ∧ TidySt s s' ∧ (∀ q, q ≠ i → s'.vars q = s.vars q) ∧
      (∃ r, s'.vars i = some ⟨true, some ⟨r, v⟩⟩) := by
  rcases cases_var h hi with ⟨m, hv, ho, _⟩ | ⟨c, hv, ho, _, _⟩
  · obtain ⟨h1, h2⟩ := place_ok h ho v
    exact ⟨place s i true v, by simp [assignValue, hv], h1, h2, fun q hq => upd_ne _ _ hq, s.next, upd_self _ _ _⟩
  · obtain ⟨s', a1, a2, a3, a4, a5⟩ := write_ok h hv v
    exact ⟨s', by simp [assignValue, hv, a1], a2, a3, a4, c.obj, a5⟩

theorem assignCopy_ok {s : St V} (h : Inv s) {i j : Nat} (hi : s.vars i ≠ none) (hj : s.vars j ≠ none) :
    ∃ s', assignCopy s i j = .ok s' ∧ Next s s' ∧ TidySt s s' ∧
      ((contents s j = some none ∧ s' = s) ∨ (∃ v, contents s j = some (some v) ∧
        contents s' = upd (contents s) i (some (some v)))) := by
  rcases cases_var h hj with ⟨m, hv, _, hc⟩ | ⟨c, hv, ho, hl, hc⟩
  · obtain ⟨x, hx⟩ := ne_none hi
    exact ⟨s, by simp [assignCopy, hv, hx], Next.refl h, Tidy.refl, .inl ⟨hc, rfl⟩⟩
  · obtain ⟨n, t⟩ := use_next h ho
    obtain ⟨s', a1, a2, a3, a4, r, a5⟩ := assignValue_ok n.inv (i := i) hi c.val
    refine ⟨s', ?_, n.trans a2, Tidy.trans n.fine t a3, .inr ⟨c.val, hc, ?_⟩⟩
    · simp only [assignCopy, hv, if_true, get, if_pos hl]; exact a1
    · refine contents_one a4 ?_
      simp [a5, holds]

theorem assignMove_ok {s : St V} (h : Inv s) {i j : Nat} (hi : s.vars i ≠ none) (hj : s.vars j ≠ none) :
    ∃ s', assignMove moved s i j = .ok s' ∧ Next s s' ∧ TidySt s s' ∧
      ((contents s j = some none ∧ s' = s) ∨ (∃ v, contents s j = some (some v) ∧
        contents s' = upd (upd (contents s) i (some (some v))) j (some (some (moved v))))) := by
  rcases cases_var h hj with ⟨m, hv, _, hc⟩ | ⟨c, hv, ho, hl, hc⟩
  · obtain ⟨x, hx⟩ := ne_none hi
    exact ⟨s, by simp [assignMove, hv, hx], Next.refl h, Tidy.refl, .inl ⟨hc, rfl⟩⟩
  · obtain ⟨n, t⟩ := use_next h ho
    obtain ⟨s1, a1, a2, a3, a4, r, a5⟩ := assignValue_ok n.inv (i := i) hi c.val
    have hj1 : ∃ d, s1.vars j = some ⟨true, some d⟩ := by
      by_cases hji : j = i
      · subst hji; exact ⟨_, a5⟩
      · exact ⟨c, (a4 j hji).trans hv⟩
    obtain ⟨d, hd⟩ := hj1
    obtain ⟨s2, b1, b2, b3, b4, b5⟩ := write_ok a2.inv hd (moved c.val)
    refine ⟨s2, ?_, (n.trans a2).trans b2, Tidy.trans (n.trans a2).fine (Tidy.trans n.fine t a3) b3,
      .inr ⟨c.val, hc, ?_⟩⟩
    · simp only [assignMove, hv, if_true, get, if_pos hl, a1]; exact b1
    · rw [contents_one (s := s1) (s1 := s2) (i := j) (o := some (some (moved c.val))) b4 (by simp [b5, holds])]
      rw [contents_one (s := s) (s1 := s1) (i := i) (o := some (some c.val)) a4 (by simp [a5, holds])]

theorem unset_ok {s : St V} (h : Inv s) {i : Nat} (hi : s.vars i ≠ none) :
    ∃ s', unset s i = .ok s' ∧ Next s s' ∧ TidySt s s' ∧ (∀ q, q ≠ i → s'.vars q = s.vars q) ∧
      (∃ m, s'.vars i = some ⟨false, m⟩) := by
  rcases cases_var h hi with ⟨m, hv, _, _⟩ | ⟨c, hv, ho, hl, _⟩
  · exact ⟨s, by simp [unset, hv], Next.refl h, Tidy.refl, fun _ _ => rfl, m, hv⟩
  · have e : ∀ q, owner ({ s with vars := upd s.vars i (some ⟨false, some c⟩), log := .closed c.obj :: s.log } : St V) q
        = upd (owner s) i none q := by
      intro q
      by_cases hq : q = i
      · subst hq; simp [owner]
      · rw [upd_ne _ _ hq]; exact owner_congr (upd_ne _ _ hq)
    have hc := fine_close (l := s.log) ho
    have hf := hc.1.congr e
    refine ⟨{ s with vars := upd s.vars i (some ⟨false, some c⟩), log := .closed c.obj :: s.log },
      by simp [unset, hv, hl], ⟨⟨(hf h.held).1, ?_, ?_⟩, hf⟩, hc.2.congr e, fun q hq => upd_ne _ _ hq,
      some c, upd_self _ _ _⟩
    · intro q hq
      exact h.fresh q (by simpa using hq)
    · intro q m hq
      by_cases hqi : q = i
      · subst hqi; simp at hq
      · exact h.wf q m (by simpa [upd_ne _ _ hqi] using hq)

theorem forget_ok {s : St V} (h : Inv s) {i : Nat} {m : Option (Cell V)} (hi : s.vars i = some ⟨false, m⟩) :
    Next s { s with vars := upd s.vars i none } ∧ TidySt s { s with vars := upd s.vars i none } := by
  have e : ∀ k, owner ({ s with vars := upd s.vars i none } : St V) k = owner s k := by
    intro k
    by_cases hk : k = i
    · subst hk; simp [owner, hi]
    · exact owner_congr (upd_ne _ _ hk)
  refine ⟨⟨⟨?_, h.fresh, ?_⟩, Fine.refl.congr e⟩, Tidy.refl.congr e⟩
  · have : owner ({ s with vars := upd s.vars i none } : St V) = owner s := funext e
    rw [this]; exact h.held
  · intro q m hq
    by_cases hqi : q = i
    · subst hqi; simp at hq
    · exact h.wf q m (by simpa [upd_ne _ _ hqi] using hq)

theorem isFill_iff {s : St V} {i : Nat} {o : Option V} (hc : contents s i = some o) (h : Inv s) :
    isFill s i = o.isSome := by
  have hi : s.vars i ≠ none := by intro e; simp [contents, e] at hc
  rcases cases_var h hi with ⟨m, hv, _, hc'⟩ | ⟨c, hv, _, _, hc'⟩
  · rw [hc'] at hc; cases hc; simp [isFill, hv]
  · rw [hc'] at hc; cases hc; simp [isFill, hv]

theorem upd_same {a : Nat → Option (Option V)} {i : Nat} {o : Option (Option V)} (h : a i = o) : a = upd a i o := by
  funext k
  by_cases hk : k = i
  · subst hk; simp [h]
  · rw [upd_ne _ _ hk]

theorem upd_upd {a : Nat → Option (Option V)} {i : Nat} {o p : Option (Option V)} : upd (upd a i o) i p = upd a i p := by
  funext k
  by_cases hk : k = i
  · subst hk; simp
  · rw [upd_ne _ _ hk, upd_ne _ _ hk, upd_ne _ _ hk]

theorem contents_declare {s : St V} {i : Nat} :
    contents ({ s with vars := upd s.vars i (some fresh) } : St V) = upd (contents s) i (some none) :=
  contents_one (fun k hk => upd_ne _ _ hk) (by simp [holds, fresh])

theorem step_ok {s : St V} (h : Inv s) {o : Op V} (hp : safe s o) :
    ∃ s', step moved s o = .ok s' ∧ Next s s' ∧
      (careful s o → contents s' = spec moved (contents s) o ∧ TidySt s s') := by
  cases o with
  | declare i =>
    simp only [safe] at hp
    obtain ⟨n, t⟩ := fresh_inv h hp
    exact ⟨_, by simp only [step, hp], n, fun _ => ⟨contents_declare, t⟩⟩
  | ctor i v =>
    simp only [safe] at hp
    obtain ⟨n, t⟩ := place_ok h (i := i) (by simp [owner, hp]) v
    refine ⟨_, by simp only [step, hp], n, fun _ => ⟨?_, t⟩⟩
    exact contents_one (fun k hk => upd_ne _ _ hk) (by simp [place, holds])
  | copyCtor i j =>
    obtain ⟨hi, hj⟩ := hp
    obtain ⟨y, hy⟩ := ne_none hj
    have hji : j ≠ i := by intro e; subst e; rw [hi] at hy; cases hy
    obtain ⟨n, t⟩ := fresh_inv h hi
    obtain ⟨s1, a1, a2, a3, a4⟩ := assignCopy_ok n.inv (i := i) (j := j) (by simp) (by simp [upd_ne _ _ hji, hy])
    refine ⟨s1, by simp only [step, hi, hy]; exact a1, n.trans a2, fun _ => ⟨?_, Tidy.trans n.fine t a3⟩⟩
    rw [contents_declare, upd_ne _ _ hji] at a4
    rcases a4 with ⟨e1, e2⟩ | ⟨v, e1, e2⟩
    · rw [e2, contents_declare]; simp only [spec, e1]
    · rw [e2]; simp only [spec, e1]; exact upd_upd
  | moveCtor i j =>
    obtain ⟨hi, hj⟩ := hp
    obtain ⟨y, hy⟩ := ne_none hj
    have hji : j ≠ i := by intro e; subst e; rw [hi] at hy; cases hy
    obtain ⟨n, t⟩ := fresh_inv h hi
    obtain ⟨s1, a1, a2, a3, a4⟩ := assignMove_ok (moved := moved) n.inv (i := i) (j := j) (by simp)
      (by simp [upd_ne _ _ hji, hy])
    refine ⟨s1, by simp only [step, hi, hy]; exact a1, n.trans a2, fun _ => ⟨?_, Tidy.trans n.fine t a3⟩⟩
    rw [contents_declare, upd_ne _ _ hji] at a4
    rcases a4 with ⟨e1, e2⟩ | ⟨v, e1, e2⟩
    · rw [e2, contents_declare]; simp only [spec, e1]
    · rw [e2]; simp only [spec, e1]; rw [upd_upd]
  | set i v =>
    simp only [safe] at hp
    obtain ⟨s1, a1, a2, a3, a4, r, a5⟩ := assignValue_ok h hp v
    exact ⟨s1, a1, a2, fun _ => ⟨contents_one a4 (by simp [a5, holds]), a3⟩⟩
  | assign i j =>
    obtain ⟨hi, hj⟩ := hp
    obtain ⟨s1, a1, a2, a3, a4⟩ := assignCopy_ok h hi hj
    refine ⟨s1, a1, a2, fun hc => ⟨?_, a3⟩⟩
    rcases a4 with ⟨e1, e2⟩ | ⟨v, e1, e2⟩
    · rw [e2]; simp only [spec]
      refine upd_same ?_
      have hfj := isFill_iff e1 h
      rcases cases_var h hi with ⟨_, _, _, hci⟩ | ⟨c, hv, _, _, hci⟩
      · rw [hci, e1]
      · have := hc.2 (by rw [isFill_iff hci h]; rfl)
        rw [hfj] at this; cases this
    · rw [e2]; simp only [spec, e1]
  | moveAssign i j =>
    obtain ⟨hi, hj⟩ := hp
    obtain ⟨s1, a1, a2, a3, a4⟩ := assignMove_ok (moved := moved) h hi hj
    refine ⟨s1, a1, a2, fun hc => ⟨?_, a3⟩⟩
    rcases a4 with ⟨e1, e2⟩ | ⟨v, e1, e2⟩
    · rw [e2]; simp only [spec, e1]
      refine upd_same ?_
      have hfj := isFill_iff e1 h
      rcases cases_var h hi with ⟨_, _, _, hci⟩ | ⟨c, hv, _, _, hci⟩
      · exact hci
      · have := hc.2 (by rw [isFill_iff hci h]; rfl)
        rw [hfj] at this; cases this
    · rw [e2]; simp only [spec, e1]
  | make i v =>
    simp only [safe] at hp
    obtain ⟨x, hx⟩ := ne_none hp
    exact ⟨_, by simp only [step, hx], (make_ok h hx v).1, fun hc => hc.2.elim⟩
  | unset i =>
    simp only [safe] at hp
    obtain ⟨s1, a1, a2, a3, a4, m, a5⟩ := unset_ok h hp
    exact ⟨s1, a1, a2, fun _ => ⟨contents_one a4 (by simp [a5, holds]), a3⟩⟩
  | read i =>
    simp only [safe] at hp
    have hi : s.vars i ≠ none := by intro e; simp [isFill, e] at hp
    rcases cases_var h hi with ⟨m, hv, _, _⟩ | ⟨c, hv, ho, hl, _⟩
    · simp [isFill, hv] at hp
    · obtain ⟨n, t⟩ := use_next h ho
      exact ⟨{ s with log := .used c.obj :: s.log }, by simp [step, get, hv, hl], n, fun _ => ⟨rfl, t⟩⟩
  | drop i =>
    simp only [safe] at hp
    obtain ⟨s1, a1, a2, a3, a4, m, a5⟩ := unset_ok h hp
    obtain ⟨n, t⟩ := forget_ok a2.inv a5
    refine ⟨{ s1 with vars := upd s1.vars i none }, by simp only [step, a1], a2.trans n,
      fun _ => ⟨?_, Tidy.trans a2.fine a3 t⟩⟩
    exact contents_one (fun k hk => (upd_ne _ _ hk).trans (a4 k hk)) (by simp)

theorem reach_inv {s : St V} (hr : Reach (step moved) safe init s) : Inv s := by
  refine Reach.inv inv_init ?_ hr
  intro s o s' h hp he
  obtain ⟨t, ht, hn, _⟩ := step_ok (moved := moved) h hp
  rw [ht] at he
  injection he with he
  subst he
  exact hn.inv

theorem orphan_forever {s t : St V} (h : Inv s) (hr : Reach (step moved) safe s t) {r : Nat}
    (ho : Orphan (owner s) s.log r) : .made r ∈ t.log ∧ t.log.count (.closed r) = 0 := by
  have : Inv t ∧ Orphan (owner t) t.log r := by
    refine Reach.inv (P := fun s => Inv s ∧ Orphan (owner s) s.log r) ⟨h, ho⟩ ?_ hr
    intro s o s' ⟨h1, h2⟩ hp he
    obtain ⟨t, ht, hn, _⟩ := step_ok (moved := moved) h1 hp
    rw [ht] at he
    injection he with he
    subst he
    exact ⟨hn.inv, (hn.fine h1.held).2 r h2⟩
  exact this.2.not_closed

/-- The object last placed in the storage of a variable. -/
def memObj (s : St V) (i : Nat) : Option Nat := match s.vars i with
  | some ⟨_, some c⟩ => some c.obj
  | _ => none

structure MemInv (s : St V) : Prop where
  lt : ∀ i r, memObj s i = some r → r < s.next
  unique : ∀ i j r, memObj s i = some r → memObj s j = some r → i = j

theorem MemInv.congr {s s' : St V} (h : MemInv s) (hn : s'.next = s.next) (e : ∀ i, memObj s' i = memObj s i) :
    MemInv s' :=
  ⟨fun i r hi => by rw [hn]; exact h.lt i r (by rw [← e]; exact hi),
   fun i j r hi hj => h.unique i j r (by rw [← e]; exact hi) (by rw [← e]; exact hj)⟩

theorem MemInv.sub {s s' : St V} (h : MemInv s) (hn : s'.next = s.next)
    (e : ∀ i r, memObj s' i = some r → memObj s i = some r) : MemInv s' :=
  ⟨fun i r hi => by rw [hn]; exact h.lt i r (e i r hi),
   fun i j r hi hj => h.unique i j r (e i r hi) (e j r hj)⟩

theorem memObj_upd {s : St V} {i k : Nat} {o : Option (Var V)} {l : List Ev} (hk : k ≠ i) :
    memObj ({ s with vars := upd s.vars i o, log := l } : St V) k = memObj s k := by
  simp [memObj, upd_ne _ _ hk]

theorem MemInv.place {s : St V} (h : MemInv s) (i : Nat) (f : Bool) (v : V) : MemInv (place s i f v) := by
  have e : ∀ k r, memObj (Optional.place s i f v) k = some r → (k = i ∧ r = s.next) ∨ (k ≠ i ∧ memObj s k = some r) := by
    intro k r hk
    by_cases hki : k = i
    · subst hki
      simp [memObj, Optional.place] at hk
      exact .inl ⟨rfl, hk.symm⟩
    · refine .inr ⟨hki, ?_⟩
      simpa [memObj, Optional.place, upd_ne _ _ hki] using hk
  constructor
  · intro k r hk
    show r < s.next + 1
    rcases e k r hk with ⟨_, rfl⟩ | ⟨_, h'⟩
    · omega
    · have := h.lt k r h'; omega
  · intro a b r ha hb
    rcases e a r ha with ⟨h1, h2⟩ | ⟨_, h1⟩ <;> rcases e b r hb with ⟨h3, h4⟩ | ⟨_, h3⟩
    · omega
    · have := h.lt b r h3; omega
    · have := h.lt a r h1; omega
    · exact h.unique a b r h1 h3

theorem MemInv.write {s s' : St V} (h : MemInv s) {i : Nat} {v : V} (hw : write s i v = .ok s') : MemInv s' := by
  unfold Optional.write at hw
  split at hw
  · rename_i f c hv
    split at hw
    · injection hw with hw
      subst hw
      refine h.congr rfl fun k => ?_
      by_cases hk : k = i
      · subst hk; simp [memObj, hv]
      · exact memObj_upd hk
    · cases hw
  · cases hw

theorem MemInv.get {s s' : St V} (h : MemInv s) {i : Nat} {v : V} (hg : get s i = .ok (s', v)) : MemInv s' := by
  unfold Optional.get at hg
  split at hg
  · split at hg
    · injection hg with hg
      injection hg with hg _
      subst hg
      exact h.congr rfl fun _ => rfl
    · cases hg
  · cases hg

theorem MemInv.assignValue {s s' : St V} (h : MemInv s) {i : Nat} {v : V} (hw : assignValue s i v = .ok s') :
    MemInv s' := by
  unfold Optional.assignValue at hw
  split at hw
  · cases hw
  · split at hw
    · exact h.write hw
    · injection hw with hw
      subst hw
      exact h.place _ _ _

theorem MemInv.assignCopy {s s' : St V} (h : MemInv s) {i j : Nat} (hw : assignCopy s i j = .ok s') : MemInv s' := by
  unfold Optional.assignCopy at hw
  split at hw
  · cases hw
  · split at hw
    · split at hw
      · rename_i hg; exact (h.get hg).assignValue hw
      · cases hw
      · cases hw
    · split at hw
      · cases hw
      · injection hw with hw; subst hw; exact h

theorem MemInv.assignMove {s s' : St V} (h : MemInv s) {i j : Nat} (hw : assignMove moved s i j = .ok s') :
    MemInv s' := by
  unfold Optional.assignMove at hw
  split at hw
  · cases hw
  · split at hw
    · split at hw
      · rename_i hg
        split at hw
        · rename_i ha; exact ((h.get hg).assignValue ha).write hw
        · cases hw
        · cases hw
      · cases hw
      · cases hw
    · split at hw
      · cases hw
      · injection hw with hw; subst hw; exact h

theorem MemInv.unset {s s' : St V} (h : MemInv s) {i : Nat} (hw : unset s i = .ok s') : MemInv s' := by
  unfold Optional.unset at hw
  split at hw
  · cases hw
  · injection hw with hw; subst hw; exact h
  · rename_i c hv
    split at hw
    · injection hw with hw
      subst hw
      refine h.congr rfl fun k => ?_
      by_cases hk : k = i
      · subst hk; simp [memObj, hv]
      · exact memObj_upd hk
    · cases hw
  · cases hw

theorem MemInv.clear {s : St V} (h : MemInv s) {i : Nat} {o : Option (Var V)} (ho : o = none ∨ o = some fresh) :
    MemInv { s with vars := upd s.vars i o } := by
  refine h.sub rfl fun k r hk => ?_
  by_cases hki : k = i
  · subst hki
    rcases ho with rfl | rfl <;> simp [memObj, fresh] at hk
  · rw [memObj_upd hki] at hk; exact hk

theorem MemInv.step {s s' : St V} (h : MemInv s) {o : Op V} (hw : step moved s o = .ok s') : MemInv s' := by
  unfold Optional.step at hw
  cases o with
  | declare i =>
    simp only at hw
    split at hw
    · injection hw with hw; subst hw; exact h.clear (.inr rfl)
    · cases hw
  | ctor i v =>
    simp only at hw
    split at hw
    · injection hw with hw; subst hw; exact h.place _ _ _
    · cases hw
  | copyCtor i j =>
    simp only at hw
    split at hw
    · exact (h.clear (i := i) (.inr rfl)).assignCopy hw
    · cases hw
  | moveCtor i j =>
    simp only at hw
    split at hw
    · exact (h.clear (i := i) (.inr rfl)).assignMove hw
    · cases hw
  | set i v => exact h.assignValue hw
  | assign i j => exact h.assignCopy hw
  | moveAssign i j => exact h.assignMove hw
  | make i v =>
    simp only at hw
    split at hw
    · cases hw
    · injection hw with hw; subst hw; exact h.place _ _ _
  | unset i => exact h.unset hw
  | read i =>
    simp only at hw
    split at hw
    · rename_i hg; injection hw with hw; subst hw; exact h.get hg
    · cases hw
    · cases hw
  | drop i =>
    simp only at hw
    split at hw
    · rename_i hu; injection hw with hw; subst hw; exact (h.unset hu).clear (.inl rfl)
    · cases hw
    · cases hw

/-- Without `init()` and assignment of empty to filled, no value is forgotten. -/
theorem reach_careful {s : St V} (hr : Reach (step moved) careful init s) :
    Inv s ∧ (∀ r, ¬ Orphan (owner s) s.log r) ∧ MemInv s := by
  refine Reach.inv (P := fun s => Inv s ∧ (∀ r, ¬ Orphan (owner s) s.log r) ∧ MemInv s)
    ⟨inv_init, ?_, by simp [init, memObj], by simp [init, memObj]⟩ ?_ hr
  · intro r hr
    simp [Orphan, Live, init] at hr
  · intro s o s' ⟨h1, h2, h3⟩ hp he
    have h4 := h3.step he
    obtain ⟨t, ht, hn, htd⟩ := step_ok (moved := moved) h1 hp.1
    rw [ht] at he
    injection he with he
    subst he
    exact ⟨hn.inv, fun r hr => h2 r ((htd hp).2 h1.held r hr), h4⟩

end Flame.Life.Optional

namespace Flame
open Own Life Life.Optional

variable {V : Type} {moved : V → V}

/-- Over every history in which no empty optional is assigned to a filled one and `init()` is not used, nothing
undefined happens and each operation has its intended effect: in particular after `a = b` the two are filled alike
and hold equal values.

Partial: the two excluded operations never have the intended effect, see `C32_assign_empty_ignored` and
`C32_init_leaks`. -/
theorem C32_holds_partial {s : St V} (hr : Reach (step moved) safe init s) {o : Op V} (ho : careful s o) :
    ∃ s', step moved s o = .ok s' ∧ contents s' = spec moved (contents s) o := by
  obtain ⟨s', h1, _, h2⟩ := Life.Optional.step_ok (moved := moved) (Life.Optional.reach_inv hr) ho.1
  exact ⟨s', h1, (h2 ho).1⟩

example : runPre (step (fun _ => 0)) careful (init : St Nat)
    [.declare 0, .ctor 1 55, .set 0 66, .copyCtor 2 0, .moveAssign 0 1, .assign 2 2, .moveCtor 3 2, .read 3, .unset 0,
     .assign 0 3, .drop 0, .drop 1, .drop 2, .drop 3] ≠ none := by decide

/-- `operator bool` says exactly whether a value is held. -/
theorem C32_bool_exact {s : St V} (hr : Reach (step moved) safe init s) {i : Nat} {o : Option V}
    (hc : contents s i = some o) : isFill s i = o.isSome :=
  Life.Optional.isFill_iff hc (Life.Optional.reach_inv hr)

/-- Reading a filled optional gives its value; reading an empty one on which `init()` was never called is
undefined (nothing is checked). -/
theorem C32_get {s : St V} (hr : Reach (step moved) careful init s) {i : Nat} :
    (∀ v, contents s i = some (some v) → ∃ s', get s i = .ok (s', v)) ∧
    (contents s i = some none → get s i = .ub) := by
  obtain ⟨hinv, hno, hmem⟩ := reach_careful hr
  constructor
  · intro v hv
    have hi : s.vars i ≠ none := by intro e; simp [contents, e] at hv
    rcases cases_var hinv hi with ⟨m, _, _, hc⟩ | ⟨c, hx, _, hl, hc⟩
    · rw [hc] at hv; simp at hv
    · rw [hc] at hv
      simp only [Option.some.injEq] at hv
      subst hv
      exact ⟨{ s with log := .used c.obj :: s.log }, by simp [Optional.get, hx, hl]⟩
  · intro hv
    have hi : s.vars i ≠ none := by intro e; simp [contents, e] at hv
    rcases cases_var hinv hi with ⟨m, hx, ho, _⟩ | ⟨c, _, _, _, hc⟩
    · cases m with
      | none => simp [Optional.get, hx]
      | some c =>
        have hd : ¬ Live c.obj s.log := by
          intro hl
          refine hno c.obj ⟨hl, fun k hk => ?_⟩
          have hk' : memObj s k = some c.obj := by
            unfold owner at hk
            split at hk
            · rename_i d hd; simp only [memObj, hd]; exact hk
            · cases hk
          have := hmem.unique k i c.obj hk' (by simp [memObj, hx])
          subst this
          rw [ho] at hk; cases hk
        simp [Optional.get, hx, hd]
    · rw [hc] at hv; simp at hv

/-- No value is ever destroyed twice or used after its destruction, whatever the history (even with `init()`). -/
theorem C32_no_double_destroy {s : St V} (hr : Reach (step moved) safe init s) :
    Proper s.log ∧ ∀ r, s.log.count (.closed r) ≤ 1 :=
  have h := (Life.Optional.reach_inv hr).held.proper
  ⟨h, fun r => h.closed_le_one r⟩

/-- Without `init()`: once all optionals are gone every value was destroyed exactly once. -/
theorem C32_destroyed_once_partial {s : St V}
    (hr : Reach (step moved) careful init s) (hg : ∀ i, s.vars i = none) : ReleasedOnce s.log := by
  have h := reach_careful hr
  exact (h.1.held.ledger h.2.1).releasedOnce fun i => by simp [owner, hg i]

/-- Assigning an empty optional to a filled one does nothing: the target keeps its value. -/
theorem C32_assign_empty_ignored {s : St V} (hr : Reach (step moved) safe init s) {i j : Nat} {v : V}
    (hi : contents s i = some (some v)) (hj : contents s j = some none) :
    step moved s (.assign i j) = .ok s ∧ step moved s (.moveAssign i j) = .ok s ∧ contents s i ≠ contents s j := by
  have hinv := Life.Optional.reach_inv hr
  have hi' : s.vars i ≠ none := by intro e; simp [contents, e] at hi
  have hj' : s.vars j ≠ none := by intro e; simp [contents, e] at hj
  obtain ⟨x, hx⟩ := ne_none hi'
  rcases cases_var hinv hj' with ⟨m, hv, _, _⟩ | ⟨c, hv, _, _, hc⟩
  · refine ⟨by simp [step, assignCopy, hv, hx], by simp [step, assignMove, hv, hx], by rw [hi, hj]; simp⟩
  · rw [hc] at hj; simp at hj

/-- `init()` on an empty optional does not fill it, and the value it constructs is never destroyed, whatever
follows. -/
theorem C32_init_leaks {s : St V} (hr : Reach (step moved) safe init s) {i : Nat}
    (hi : contents s i = some none) (v : V) :
    ∃ s', step moved s (.make i v) = .ok s' ∧ contents s' i = some none ∧
      ∀ t, Reach (step moved) safe s' t → .made s.next ∈ t.log ∧ t.log.count (.closed s.next) = 0 := by
  have hinv := Life.Optional.reach_inv hr
  have hi' : s.vars i ≠ none := by intro e; simp [contents, e] at hi
  rcases cases_var hinv hi' with ⟨m, hv, _, _⟩ | ⟨c, hv, _, _, hc⟩
  · obtain ⟨n, h2, _⟩ := make_ok hinv hv v
    refine ⟨place s i false v, by simp only [step, hv], by simp [contents, place, holds], fun t ht => ?_⟩
    exact Life.Optional.orphan_forever n.inv ht (h2 rfl)
  · rw [hc] at hi; simp at hi

/-- `init()` on a filled optional loses the value it held: it is never destroyed. -/
theorem C32_init_filled_leaks {s : St V} (hr : Reach (step moved) safe init s) {i : Nat} {w : V}
    (hi : contents s i = some (some w)) (v : V) :
    ∃ r s', owner s i = some r ∧ step moved s (.make i v) = .ok s' ∧ contents s' i = some (some v) ∧
      ∀ t, Reach (step moved) safe s' t → .made r ∈ t.log ∧ t.log.count (.closed r) = 0 := by
  have hinv := Life.Optional.reach_inv hr
  have hi' : s.vars i ≠ none := by intro e; simp [contents, e] at hi
  rcases cases_var hinv hi' with ⟨m, hv, _, hc⟩ | ⟨c, hv, ho, _, _⟩
  · rw [hc] at hi; simp at hi
  · obtain ⟨n, _, h3⟩ := make_ok hinv hv v
    refine ⟨c.obj, place s i true v, ho, by simp only [step, hv], by simp [contents, place, holds], fun t ht => ?_⟩
    exact Life.Optional.orphan_forever n.inv ht (h3 _ ho)

example : ∃ s : St Nat, Reach (step id) careful init s ∧ ([isFill s 0, isFill s 1] = [true, false] ∧
    s.vars 0 = some ⟨true, some ⟨0, 5⟩⟩) :=
  let ⟨s, h, e⟩ := Reach.witness (step := step id) (pre := careful) (s₀ := (init : St Nat))
    [.ctor 0 5, .declare 1] (fun s => ([isFill s 0, isFill s 1], s.vars 0))
    ([true, false], some ⟨true, some ⟨0, 5⟩⟩) (by decide)
  ⟨s, h, by injection e with h1 h2; exact ⟨h1, h2⟩⟩

/-! The theorems at a state with a filled and an empty variable. -/

def Life.Optional.exState : St Nat := visit (step id) careful init [.ctor 0 5, .declare 1]

theorem Life.Optional.exState_careful : Reach (step id) careful init exState := .visit _ (by decide)

theorem Life.Optional.exState_safe : Reach (step id) safe init exState :=
  Reach.visit (step := step id) (pre := safe) (s₀ := init) [.ctor 0 5, .declare 1] (by decide)

theorem Life.Optional.exEnd : Reach (step id) careful (init : St Nat) (visit (step id) careful init [.ctor 0 5, .set 0 6, .drop 0]) := .visit _ (by decide)

example := C32_bool_exact exState_safe (i := 0) rfl
example := C32_get exState_careful (i := 0)
example := C32_no_double_destroy exState_safe
example := C32_assign_empty_ignored exState_safe (i := 0) (j := 1) rfl rfl
example := C32_init_leaks exState_safe (i := 1) rfl 7
example := C32_destroyed_once_partial exEnd (fun
  | 0 => rfl
  | _ + 1 => rfl)

end Flame
