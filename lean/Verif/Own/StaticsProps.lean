import Verif.Own.Statics

/-!
# C184: static objects of the program can use the library
-/

namespace Flame.Own.Statics

/-- The program's objects among what is to be destroyed. -/
def objsOf : List Item → List Obj
  | [] => []
  | .lib _ :: r => objsOf r
  | .obj o :: r => o :: objsOf r

/-- The program's objects that are destroyed after `k`. -/
def below (k : Single) : List Item → Option (List Obj)
  | [] => none
  | .lib q :: r => if q = k then some (objsOf r) else below k r
  | .obj _ :: r => below k r

/-- One use. -/
theorem use_spec (s : St) (k : Single) :
    (s.life k = .over ∧ use s k = .ub) ∨
    (s.life k ≠ .over ∧ ∃ s', use s k = .ok s' ∧ objsOf s'.stack = objsOf s.stack ∧
      (∀ q, s'.life q = if q = k ∧ s.life q = .before then .alive else s.life q) ∧
      (∀ q, below q s'.stack = if q = k ∧ s.life q = .before then some (objsOf s.stack) else below q s.stack) ∧
      (∀ q, Item.lib q ∈ s'.stack ↔ (q = k ∧ s.life q = .before) ∨ Item.lib q ∈ s.stack)) := by
  unfold use
  cases h : s.life k with
  | before =>
    refine .inr ⟨by simp, _, rfl, rfl, fun q => ?_, fun q => ?_, fun q => ?_⟩
    · by_cases e : q = k
      · subst e; simp [h]
      · simp [upd_ne _ _ e, e]
    · by_cases e : q = k
      · subst e; simp [below, h]
      · simp [below, e, Ne.symm e]
    · by_cases e : q = k
      · subst e; simp [h]
      · simp [e]
  | alive =>
    refine .inr ⟨by simp, s, rfl, rfl, fun q => ?_, fun q => ?_, fun q => ?_⟩ <;>
    · by_cases e : q = k
      · subst e; simp [h]
      · simp [e]
  | over => exact .inl ⟨rfl, rfl⟩

/-- Several uses. -/
theorem uses_spec : ∀ (ks : List Single) (s : St),
    ((∃ k ∈ ks, s.life k = .over) ∧ uses s ks = .ub) ∨
    ((∀ k ∈ ks, s.life k ≠ .over) ∧ ∃ s', uses s ks = .ok s' ∧ objsOf s'.stack = objsOf s.stack ∧
      (∀ q, s'.life q = if q ∈ ks ∧ s.life q = .before then .alive else s.life q) ∧
      (∀ q, below q s'.stack = if q ∈ ks ∧ s.life q = .before then some (objsOf s.stack) else below q s.stack) ∧
      (∀ q, Item.lib q ∈ s'.stack ↔ (q ∈ ks ∧ s.life q = .before) ∨ Item.lib q ∈ s.stack)) := by
  intro ks
  induction ks with
  | nil => intro s; exact .inr ⟨by simp, s, rfl, rfl, by simp, by simp, by simp⟩
  | cons k ks ih =>
    intro s
    rcases use_spec s k with ⟨h, e⟩ | ⟨h, s1, e, ho, hl, hb, hm⟩
    · exact .inl ⟨⟨k, by simp, h⟩, by simp [uses, e]⟩
    · have hov : ∀ q, s1.life q = .over ↔ s.life q = .over := fun q => by
        rw [hl q]
        by_cases c : q = k ∧ s.life q = .before
        · rw [if_pos c, c.2]; simp
        · rw [if_neg c]
      rcases ih s1 with ⟨⟨q, hq, hq'⟩, e'⟩ | ⟨h', s2, e', ho', hl', hb', hm'⟩
      · exact .inl ⟨⟨q, by simp [hq], (hov q).1 hq'⟩, by simp [uses, e, e']⟩
      · refine .inr ⟨fun q hq => ?_, s2, by simp [uses, e, e'], ho'.trans ho, fun q => ?_, fun q => ?_, fun q => ?_⟩
        · rcases List.mem_cons.1 hq with rfl | hq
          · exact h
          · exact fun c => h' q hq ((hov q).2 c)
        all_goals
          first | rw [hl' q] | rw [hb' q, ho] | rw [hm' q]
          simp only [hl q, hb q, hm q, List.mem_cons]
          by_cases ek : q = k <;> cases hq : s.life q <;> by_cases hk : q ∈ ks <;> simp_all

/-- Whether the rest of the end goes well as far as `k` is concerned. -/
def Fine (k : Single) : Life → List Item → Prop
  | _, [] => True
  | l, .lib q :: r => Fine k (if q = k ∧ k.lasting = false then .over else l) r
  | l, .obj o :: r =>
    if k ∈ o.dtor then l ≠ .over ∧ Fine k (if l = .before then if k.lasting then .alive else .over else l) r
    else Fine k l r

theorem finish_apply (life : Single → Life) (k q : Single) : finish life k q = if k = q ∧ q.lasting = false then .over else life q := by
  unfold finish
  by_cases e : k = q
  · subst e
    cases h : k.lasting <;> simp [h]
  · cases h : k.lasting
    · simp [upd_ne _ _ (Ne.symm e), e]
    · simp [e]

theorem finishAll_apply : ∀ (l : List Item) (life : Single → Life) (q : Single),
    finishAll life l q = if Item.lib q ∈ l ∧ q.lasting = false then .over else life q := by
  intro l
  induction l with
  | nil => intro life q; simp [finishAll]
  | cons it r ih =>
    intro life q
    cases it with
    | lib k =>
      simp only [finishAll]
      rw [ih, finish_apply]
      by_cases e : k = q
      · subst e
        cases h : k.lasting <;> simp
      · simp [e, Ne.symm e]
    | obj o =>
      simp only [finishAll]
      rw [ih]
      simp

theorem unwind_iff : ∀ (st : List Item) (life : Single → Life), (∃ l, unwind life st = .ok l) ↔ ∀ k, Fine k (life k) st := by
  intro st
  induction st with
  | nil => intro life; exact ⟨fun _ _ => trivial, fun _ => ⟨life, rfl⟩⟩
  | cons it r ih =>
    intro life
    cases it with
    | lib k =>
      simp only [unwind, Fine]
      rw [ih]
      simp only [finish_apply]
    | obj o =>
      simp only [unwind]
      rcases uses_spec o.dtor ⟨life, []⟩ with ⟨⟨k, hk, ho⟩, e⟩ | ⟨h, s', e, _, hl, _, hm⟩
      · rw [e]
        refine ⟨fun c => by obtain ⟨l, c⟩ := c; exact absurd c (by simp), fun c => ?_⟩
        have := c k
        simp only [Fine, if_pos hk] at this
        exact absurd ho this.1
      · rw [e]
        simp only [Res.ok_bind]
        rw [ih]
        refine forall_congr' fun k => ?_
        rw [finishAll_apply, hl k]
        simp only [hm k, Fine, List.not_mem_nil, or_false]
        by_cases hk : k ∈ o.dtor
        · have hne : life k ≠ .over := h k hk
          simp only [hk, if_true, true_and]
          cases hlk : life k <;> cases hla : k.lasting <;> simp_all
        · simp [hk]

theorem fine_lasting {k : Single} (hk : k.lasting = true) : ∀ (st : List Item) (l : Life), l ≠ .over → Fine k l st := by
  intro st
  induction st with
  | nil => intro l _; trivial
  | cons it r ih =>
    intro l hl
    cases it with
    | lib q => simp only [Fine, hk]; simpa using ih l hl
    | obj o =>
      simp only [Fine, hk]
      split
      · refine ⟨hl, ih _ ?_⟩
        split <;> simp_all
      · exact ih l hl

theorem fine_over {k : Single} : ∀ (st : List Item), Fine k .over st ↔ ∀ o ∈ objsOf st, k ∉ o.dtor := by
  intro st
  induction st with
  | nil => simp [Fine, objsOf]
  | cons it r ih =>
    cases it with
    | lib q => simpa [Fine, objsOf] using ih
    | obj o =>
      simp only [Fine, objsOf]
      by_cases h : k ∈ o.dtor <;> simp [h, ih]

theorem fine_alive {k : Single} (hk : k.lasting = false) : ∀ (st : List Item) (bs : List Obj), below k st = some bs →
    (Fine k .alive st ↔ ∀ o ∈ bs, k ∉ o.dtor) := by
  intro st
  induction st with
  | nil => intro bs h; simp [below] at h
  | cons it r ih =>
    intro bs h
    cases it with
    | lib q =>
      simp only [below] at h
      by_cases e : q = k
      · rw [if_pos e] at h
        injection h with h
        subst h
        simp only [Fine]
        rw [if_pos ⟨e, hk⟩]
        exact fine_over r
      · rw [if_neg e] at h
        simp only [Fine]
        rw [if_neg (fun c => e c.1)]
        exact ih bs h
    | obj o =>
      simp only [below] at h
      simp only [Fine]
      have := ih bs h
      split
      · simpa using this
      · exact this

theorem fine_before {k : Single} (hk : k.lasting = false) : ∀ (st : List Item), below k st = none →
    (Fine k .before st ↔ ((objsOf st).filter fun o => k ∈ o.dtor).length ≤ 1) := by
  intro st
  induction st with
  | nil => intro _; simp [Fine, objsOf]
  | cons it r ih =>
    intro h
    cases it with
    | lib q =>
      simp only [below] at h
      by_cases e : q = k
      · rw [if_pos e] at h; exact absurd h (by simp)
      · rw [if_neg e] at h
        simp only [Fine, objsOf]
        rw [if_neg (fun c => e c.1)]
        exact ih h
    | obj o =>
      simp only [below] at h
      simp only [Fine, objsOf]
      by_cases hd : k ∈ o.dtor
      · simp only [hd, if_true, hk, Bool.false_eq_true, if_false, ne_eq, reduceCtorEq, not_false_eq_true, true_and, List.filter_cons, decide_true,
          List.length_cons]
        rw [fine_over]
        constructor
        · intro c
          have : (objsOf r).filter (fun o => decide (k ∈ o.dtor)) = [] := by
            rw [List.filter_eq_nil_iff]
            intro x hx
            simpa using c x hx
          rw [this]
          simp
        · intro c x hx hxd
          have : x ∈ (objsOf r).filter (fun o => decide (k ∈ o.dtor)) := by
            rw [List.mem_filter]
            exact ⟨hx, by simpa using hxd⟩
          have := List.length_pos_of_mem this
          omega
      · simp only [hd, if_false, List.filter_cons, decide_false, Bool.false_eq_true]
        exact ih h

/-- The part of the program before `exit`. -/
structure Good (s : St) : Prop where
  notOver : ∀ k, s.life k ≠ .over
  on : ∀ k, s.life k = .alive → (below k s.stack).isSome = true
  off : ∀ k, s.life k = .before → below k s.stack = none

theorem uses_good {s : St} (h : Good s) (ks : List Single) : ∃ s', uses s ks = .ok s' ∧ Good s' ∧ objsOf s'.stack = objsOf s.stack ∧
    (∀ q, s'.life q = if q ∈ ks then .alive else s.life q) ∧
    (∀ q, below q s'.stack = if q ∈ ks ∧ s.life q = .before then some (objsOf s.stack) else below q s.stack) := by
  rcases uses_spec ks s with ⟨⟨k, _, c⟩, _⟩ | ⟨_, s', e, ho, hl, hb, _⟩
  · exact absurd c (h.notOver k)
  · have hl' : ∀ q, s'.life q = if q ∈ ks then .alive else s.life q := fun q => by
      rw [hl q]
      have := h.notOver q
      cases hq : s.life q <;> by_cases hk : q ∈ ks <;> simp_all
    refine ⟨s', e, ⟨fun k => ?_, fun k => ?_, fun k => ?_⟩, ho, hl', hb⟩
    · rw [hl' k]
      have := h.notOver k
      split <;> simp_all
    · rw [hl' k, hb k]
      have h1 := h.notOver k
      have h2 := h.on k
      cases hq : s.life k <;> by_cases hk : k ∈ ks <;> simp_all
    · rw [hl' k, hb k]
      have h1 := h.off k
      cases hq : s.life k <;> by_cases hk : k ∈ ks <;> simp_all

theorem constructs_good : ∀ (os : List Obj) {s : St}, Good s → ∃ s', constructs s os = .ok s' ∧ Good s' ∧ objsOf s'.stack = os.reverse ++ objsOf s.stack ∧
    ∀ k, (s.life k = .alive → s'.life k = .alive ∧ below k s'.stack = below k s.stack) ∧
      (s.life k = .before →
        (s'.life k = .before ∧ ∀ o ∈ os, k ∉ o.ctor) ∨
        (s'.life k = .alive ∧ ∃ a o b, os = a ++ o :: b ∧ k ∈ o.ctor ∧ (∀ x ∈ a, k ∉ x.ctor) ∧ below k s'.stack = some (a.reverse ++ objsOf s.stack))) := by
  intro os
  induction os with
  | nil => intro s h; exact ⟨s, rfl, h, by simp, fun k => ⟨fun a => ⟨a, rfl⟩, fun b => .inl ⟨b, by simp⟩⟩⟩
  | cons o os ih =>
    intro s h
    obtain ⟨s1, e1, g1, o1, l1, b1⟩ := uses_good h o.ctor
    have g2 : Good { s1 with stack := .obj o :: s1.stack } := ⟨g1.notOver, fun k c => g1.on k c, fun k c => g1.off k c⟩
    obtain ⟨s', e2, g', o2, hk⟩ := ih g2
    refine ⟨s', by simp [constructs, construct, e1, e2], g', by rw [o2]; simp [objsOf, o1], fun k => ⟨fun ha => ?_, fun hb => ?_⟩⟩
    · have : s1.life k = .alive := by rw [l1 k, ha]; simp
      obtain ⟨c1, c2⟩ := (hk k).1 this
      refine ⟨c1, c2.trans ?_⟩
      show below k s1.stack = _
      rw [b1 k, ha]
      simp
    · by_cases hc : k ∈ o.ctor
      · have : s1.life k = .alive := by rw [l1 k, if_pos hc]
        obtain ⟨c1, c2⟩ := (hk k).1 this
        refine .inr ⟨c1, [], o, os, rfl, hc, by simp, c2.trans ?_⟩
        show below k s1.stack = _
        rw [b1 k, if_pos ⟨hc, hb⟩]
        rfl
      · have : s1.life k = .before := by rw [l1 k, if_neg hc, hb]
        rcases (hk k).2 this with ⟨c1, c2⟩ | ⟨c1, a, x, b, rfl, hx, ha, hbl⟩
        · refine .inl ⟨c1, fun y hy => ?_⟩
          rcases List.mem_cons.1 hy with rfl | hy
          · exact hc
          · exact c2 y hy
        · refine .inr ⟨c1, o :: a, x, b, rfl, hx, fun y hy => ?_, ?_⟩
          · rcases List.mem_cons.1 hy with rfl | hy
            · exact hc
            · exact ha y hy
          · rw [hbl]
            simp [objsOf, o1]

/-- Specification: as far as the library's object `k` is concerned, the program can end.  The first of its objects whose constructor uses `k` comes before all that
use it in their destructors; or none of the constructors uses it, then either `main` does, and no destructor may, or it does not, and at most one destructor may. -/
def Safe (p : Prog) (k : Single) : Prop :=
  (∃ a o b, p.objs = a ++ o :: b ∧ k ∈ o.ctor ∧ ∀ x ∈ a, k ∉ x.dtor) ∨
  ((∀ o ∈ p.objs, k ∉ o.ctor) ∧
    ((k ∈ p.main ∧ ∀ o ∈ p.objs, k ∉ o.dtor) ∨ (k ∉ p.main ∧ (p.objs.filter fun o => k ∈ o.dtor).length ≤ 1)))

theorem good_start : Good start := ⟨by simp [start], by simp [start], by simp [start, below]⟩

theorem split_first {α : Type} {a a' b b' : List α} {o o' : α} (e : a ++ o :: b = a' ++ o' :: b') :
    (∃ c, a = a' ++ o' :: c) ∨ (∃ c, a' = a ++ c) := by
  rcases List.append_eq_append_iff.1 e with ⟨c, h1, h2⟩ | ⟨c, h1, h2⟩
  · exact .inr ⟨c, h1⟩
  · cases c with
    | nil => exact .inr ⟨[], by simpa using h1.symm⟩
    | cons x c =>
      simp only [List.cons_append, List.cons.injEq] at h2
      exact .inl ⟨c, by rw [h1, h2.1]⟩

/-- The objects with something to destroy. -/
def mortal : List Single := [.catcher, .token, .winsock]

theorem mortal_iff (k : Single) : k ∈ mortal ↔ k.lasting = false := by
  cases k <;> simp [mortal, Single.lasting]

/-- **C184, exactly**: the program comes to its end without using an object that is no longer there if and only if it is safe for each of the library's
objects that has something to destroy.  It is never undefined before the end. -/
theorem C184_exact (p : Prog) : (∃ l, run p = .ok l) ↔ ∀ k ∈ mortal, Safe p k := by
  obtain ⟨s1, e1, g1, o1, h1⟩ := constructs_good p.objs good_start
  obtain ⟨s2, e2, g2, o2, l2, b2⟩ := uses_good g1 p.main
  have ho : objsOf s2.stack = p.objs.reverse := by rw [o2, o1]; simp [start, objsOf]
  have er : run p = unwind s2.life s2.stack := by simp [run, e1, e2]
  rw [er, unwind_iff]
  refine forall_congr' fun k => ?_
  rw [mortal_iff]
  by_cases hk : k.lasting = true
  · simp only [hk, Bool.true_eq_false, false_imp_iff, iff_true]
    exact fine_lasting hk _ _ (g2.notOver k)
  · have hk : k.lasting = false := by simpa using hk
    simp only [hk, true_imp_iff]
    rcases (h1 k).2 rfl with ⟨c1, c2⟩ | ⟨c1, a, o, b, hos, hoc, hac, hbl⟩
    · by_cases hm : k ∈ p.main
      · have hl : s2.life k = .alive := by rw [l2 k, if_pos hm]
        have hb : below k s2.stack = some p.objs.reverse := by
          rw [b2 k, if_pos ⟨hm, c1⟩, o1]
          simp [start, objsOf]
        rw [hl, fine_alive hk _ _ hb]
        constructor
        · intro c
          exact .inr ⟨c2, .inl ⟨hm, fun x hx => c x (by simpa using hx)⟩⟩
        · rintro (⟨a, o, b, hos, hoc, _⟩ | ⟨_, ⟨_, c⟩ | ⟨c, _⟩⟩)
          · exact absurd hoc (c2 o (by rw [hos]; simp))
          · exact fun x hx => c x (by simpa using hx)
          · exact absurd hm c
      · have hl : s2.life k = .before := by rw [l2 k, if_neg hm, c1]
        rw [hl, fine_before hk _ (g2.off k hl), ho, List.filter_reverse, List.length_reverse]
        constructor
        · intro c
          exact .inr ⟨c2, .inr ⟨hm, c⟩⟩
        · rintro (⟨a, o, b, hos, hoc, _⟩ | ⟨_, ⟨c, _⟩ | ⟨_, c⟩⟩)
          · exact absurd hoc (c2 o (by rw [hos]; simp))
          · exact absurd c hm
          · exact c
    · have hl : s2.life k = .alive := by rw [l2 k, c1]; simp
      have hb : below k s2.stack = some a.reverse := by
        rw [b2 k, if_neg (by rw [c1]; simp), hbl]
        simp [start, objsOf]
      rw [hl, fine_alive hk _ _ hb]
      constructor
      · intro c
        exact .inl ⟨a, o, b, hos, hoc, fun x hx => c x (by simpa using hx)⟩
      · rintro (⟨a', o', b', hos', hoc', hd⟩ | ⟨c, _⟩)
        · intro x hx
          rw [List.mem_reverse] at hx
          rw [hos] at hos'
          rcases split_first hos' with ⟨c, ec⟩ | ⟨c, ec⟩
          · exact absurd hoc' (hac o' (by rw [ec]; simp))
          · exact hd x (by rw [ec]; simp [hx])
        · exact absurd hoc (c o (by rw [hos]; simp))

/-- **C184 (partial)**: a program each of whose static objects also uses in its constructor what it uses in its destructor comes to its end, and so does one without
static objects that use the library in their destructors. -/
theorem C184_partial (p : Prog) (h : ∀ o ∈ p.objs, ∀ k ∈ o.dtor, k ∈ mortal → k ∈ o.ctor) : ∃ l, run p = .ok l := by
  rw [C184_exact]
  intro k hk
  by_cases hc : ∃ o ∈ p.objs, k ∈ o.ctor
  · -- the first one
    have key : ∀ os : List Obj, (∃ o ∈ os, k ∈ o.ctor) → (∀ o ∈ os, k ∈ o.dtor → k ∈ o.ctor) →
        ∃ a o b, os = a ++ o :: b ∧ k ∈ o.ctor ∧ ∀ x ∈ a, k ∉ x.dtor := by
      intro os
      induction os with
      | nil => rintro ⟨o, ho, _⟩; simp at ho
      | cons x os ih =>
        rintro ⟨o, ho, hoc⟩ hd
        by_cases hx : k ∈ x.ctor
        · exact ⟨[], x, os, rfl, hx, by simp⟩
        · rcases List.mem_cons.1 ho with rfl | ho
          · exact absurd hoc hx
          · obtain ⟨a, y, b, e, hy, ha⟩ := ih ⟨o, ho, hoc⟩ fun z hz => hd z (List.mem_cons_of_mem _ hz)
            refine ⟨x :: a, y, b, by rw [e]; rfl, hy, fun z hz => ?_⟩
            rcases List.mem_cons.1 hz with rfl | hz
            · exact fun c => hx (hd z List.mem_cons_self c)
            · exact ha z hz
    exact .inl (key p.objs hc fun o ho hd => h o ho k hd hk)
  · have hc' : ∀ o ∈ p.objs, k ∉ o.ctor := fun o ho c => hc ⟨o, ho, c⟩
    have hd : ∀ o ∈ p.objs, k ∉ o.dtor := fun o ho c => hc' o ho (h o ho k c hk)
    refine .inr ⟨hc', ?_⟩
    by_cases hm : k ∈ p.main
    · exact .inl ⟨hm, hd⟩
    · refine .inr ⟨hm, ?_⟩
      have : (p.objs.filter fun o => decide (k ∈ o.dtor)) = [] := by
        rw [List.filter_eq_nil_iff]
        intro x hx
        simpa using hd x hx
      rw [this]
      simp

/-- A server that registers itself in its constructor and withdraws in its destructor, before and after others that only use the library in their constructors. -/
example : ∃ l, run ⟨[⟨[.callbacks 0], []⟩, ⟨[.catcher, .callbacks 1], [.catcher]⟩, ⟨[.catcher, .token], [.token, .callbacks 0]⟩], [.winsock]⟩ = .ok l :=
  C184_partial _ (by decide)

/-- C184: the tables of functions can be used at any time. -/
theorem C184_callbacks (p : Prog) (h : ∀ o ∈ p.objs, ∀ k ∈ o.dtor, ∃ n, k = .callbacks n) : ∃ l, run p = .ok l :=
  C184_partial p fun o ho k hk c => by
    obtain ⟨n, rfl⟩ := h o ho k hk
    exact absurd c (by simp [mortal])

example : ∃ l, run ⟨[⟨[], [.callbacks 3]⟩, ⟨[.catcher], [.callbacks 2, .callbacks 3]⟩], [.catcher, .token]⟩ = .ok l := C184_callbacks _ (by simp)

/-- **C184 violated**: a static object that does not use the library when it is constructed but, once `main` has used it, does when it is destroyed - a registry of sockets that are
withdrawn at the end, a `Pkcs11Library` that is initialised later - uses an object that has been destroyed already; whatever else the program does in `main`, and
whatever other static objects there are that leave `k` alone in their constructors. -/
theorem C184_violated {p : Prog} {k : Single} (hk : k ∈ mortal) (hm : k ∈ p.main) (hc : ∀ o ∈ p.objs, k ∉ o.ctor) {o : Obj} (ho : o ∈ p.objs)
    (hd : k ∈ o.dtor) : ¬ ∃ l, run p = .ok l := by
  rw [C184_exact]
  intro c
  rcases c k hk with ⟨a, x, b, e, hx, _⟩ | ⟨_, ⟨_, c⟩ | ⟨c, _⟩⟩
  · exact hc x (by rw [e]; simp) hx
  · exact c o ho hd
  · exact c hm

/-- A global registry of sockets; the registrar is used in `main`. -/
example : run ⟨[⟨[], [.catcher]⟩], [.catcher]⟩ = .ub := rfl

/-- C184 violated: also without `main`, two static objects that use the library in their destructors only. -/
theorem C184_two_violated {p : Prog} {k : Single} (hk : k ∈ mortal) (hm : k ∉ p.main) (hc : ∀ o ∈ p.objs, k ∉ o.ctor)
    (h2 : 2 ≤ (p.objs.filter fun o => k ∈ o.dtor).length) : ¬ ∃ l, run p = .ok l := by
  rw [C184_exact]
  intro c
  rcases c k hk with ⟨a, x, b, e, hx, _⟩ | ⟨_, ⟨c, _⟩ | ⟨_, c⟩⟩
  · exact hc x (by rw [e]; simp) hx
  · exact hm c
  · omega

example : run ⟨[⟨[], [.catcher]⟩, ⟨[], [.catcher]⟩], []⟩ = .ub ∧ ∃ l, run ⟨[⟨[], [.catcher]⟩], []⟩ = .ok l :=
  ⟨rfl, (C184_exact _).2 fun k _ => .inr ⟨by simp, .inr ⟨by simp, by
    refine Nat.le_trans (List.length_filter_le _ _) ?_
    decide⟩⟩⟩

end Flame.Own.Statics
