import Verif.List.Props

/-!
# C14: exactly which histories a list survives

`Works` says what a caller expects of a list that should hold `l`: an element can be appended, iteration in both directions then gives the
right sequence, and the list can be cleaned (destroyed).
-/

namespace Flame
open LL ListSpec
variable {α : Type}

namespace ListSpec

/-- The exact set of valid calls that leave a working list.  (`safe` leaves out two calls without effect on an empty list: inserting an empty
range and erasing an empty range.) -/
def good (l : List α) : Op α → Prop
  | .insert i _ => i ≤ l.length ∧ 0 < l.length
  | .insertRange i xs => i ≤ l.length ∧ (0 < l.length ∨ xs = [])
  | .popBack | .popFront => 2 ≤ l.length
  | .erase i => i + 1 < l.length
  | .eraseRange i j => i ≤ j ∧ j ≤ l.length ∧ (i < l.length ∨ l = [])
  | _ => True

def GoodHist (l : List α) : List (Op α) → Prop
  | [] => True
  | o :: os => good l o ∧ GoodHist (apply l o) os

end ListSpec

namespace LL

/-- The list object `o` can be used as a list holding `l`. -/
def Works (m : Mem α) (o : Nat) (l : List α) : Prop :=
  ∀ x f, m.fresh + 1 < f → ∃ m', pushBack m o x = .ok m' ∧ toList f m' o = .ok (l ++ [x]) ∧ toListReverse f m' o = .ok (x :: l.reverse) ∧
    ∃ m'', clean f m' o = .ok m''

theorem pushBack_fresh {m m' : Mem α} {o : Nat} {x : α} (h : pushBack m o x = .ok m') : m'.fresh = m.fresh + 1 := by
  have key : ∀ {a b : Mem α}, updateTailLinks a o = .ok b → b.fresh = a.fresh := by
    intro a b hb
    simp only [updateTailLinks, setPrev, setNext] at hb
    split at hb
    · simp only [Res.ok_bind] at hb
      split at hb
      · injection hb with hb; subst hb; rfl
      · cases hb
    · cases hb
  have key2 : ∀ {a b : Mem α}, updateHeadLinks a o = .ok b → b.fresh = a.fresh := by
    intro a b hb
    simp only [updateHeadLinks, setPrev, setNext] at hb
    split at hb
    · simp only [Res.ok_bind] at hb
      split at hb
      · injection hb with hb; subst hb; rfl
      · cases hb
    · cases hb
  simp only [pushBack] at h
  split at h
  · cases e1 : setPrev (alloc m x) (.node m.fresh) ((alloc m x).tail o) with
    | ub => simp [e1] at h
    | loop => simp [e1] at h
    | ok m1 =>
      simp only [e1, Res.ok_bind] at h
      have f1 : m1.fresh = m.fresh + 1 := by
        simp only [setPrev] at e1
        split at e1
        · injection e1 with e1; subst e1; rfl
        · cases e1
      cases e2 : setNext m1 (m1.tail o) (.node m.fresh) with
      | ub => simp [e2] at h
      | loop => simp [e2] at h
      | ok m2 =>
        simp only [e2, Res.ok_bind] at h
        have f2 : m2.fresh = m1.fresh := by
          simp only [setNext] at e2
          split at e2
          · injection e2 with e2; subst e2; rfl
          · cases e2
        cases e3 : load m2 (m2.tail o) with
        | ub => simp [e3] at h
        | loop => simp [e3] at h
        | ok t =>
          simp only [e3, Res.ok_bind] at h
          rw [key h]
          show m2.fresh = _
          omega
  · simp only [updateLinks] at h
    cases e1 : updateHeadLinks (setTail (setHead (alloc m x) o (.node m.fresh)) o (.node m.fresh)) o with
    | ub => simp [e1] at h
    | loop => simp [e1] at h
    | ok m1 =>
      simp only [e1, Res.ok_bind] at h
      rw [key h, key2 e1]
      rfl

/-- A list whose links are in order works. -/
theorem LInv.works {m : Mem α} {o : Nat} {es : Entries α} (h : LInv m o es) : Works m o (es.map (·.2)) := by
  intro x f hf
  obtain ⟨m', a, b⟩ := pushBack_ok h x
  have hfr := pushBack_fresh a
  obtain ⟨_, o1, o2⟩ := C14_observe b.inv (l := es.map (·.2) ++ [x]) (by simp) (by simp) (f := f) (by omega)
  obtain ⟨m'', c, _⟩ := clean_ok b.inv (f := f) (by have := b.inv.len; omega)
  exact ⟨m', a, o1, by simpa using o2, m'', c⟩

theorem Works.pushBack_ne {m : Mem α} {o : Nat} {l : List α} (h : Works m o l) (x : α) : pushBack m o x ≠ .ub := by
  obtain ⟨m', a, _⟩ := h x (m.fresh + 2) (by omega)
  rw [a]; exact fun h => by cases h

end LL

/-- Only the `good` calls leave a list to which some object can be appended so that iteration ends. -/
theorem LL.good_of_usable {m m' m2 : Mem α} {o f : Nat} {es : Entries α} {l l2 : List α} {x : α} (h : LInv m o es) (hnull : m.cell .null = none)
    (hl : es.map (·.2) = l) (op : Op α) (hv : valid l op) (hs : step o m op = .ok m') (hp : pushBack m' o x = .ok m2) (hf : m'.fresh + 1 < f)
    (ht : toList f m2 o = .ok l2) : good l op := by
  have hlen : es.length = l.length := by rw [← hl, List.length_map]
  obtain ⟨f, rfl⟩ : ∃ g, f = g + 2 := ⟨f - 2, by omega⟩
  cases op with
  | pushBack x => trivial
  | pushFront x => trivial
  | clean => trivial
  | insert i y =>
    refine ⟨hv, ?_⟩
    apply Classical.byContradiction
    intro h0
    have : es = [] := List.length_eq_zero_iff.mp (by omega)
    subst this
    simp only [step] at hs
    cases hi : iterAt m o i with
    | ub => simp [hi] at hs
    | loop => simp [hi] at hs
    | ok it =>
      simp only [hi, Res.ok_bind] at hs
      rw [(C14_insert_empty_violated h hnull it y [] (m.fresh + 1)).1] at hs
      cases hs
  | insertRange i xs =>
    refine ⟨hv, ?_⟩
    cases xs with
    | nil => exact .inr rfl
    | cons y ys =>
      refine .inl ?_
      apply Classical.byContradiction
      intro h0
      have : es = [] := List.length_eq_zero_iff.mp (by omega)
      subst this
      simp only [step] at hs
      cases hi : iterAt m o i with
      | ub => simp [hi] at hs
      | loop => simp [hi] at hs
      | ok it =>
        simp only [hi, Res.ok_bind] at hs
        rw [(C14_insert_empty_violated h hnull it y ys (m.fresh + 1)).2] at hs
        cases hs
  | popBack =>
    apply Classical.byContradiction
    intro h0
    have hv' : 0 < l.length := hv
    have h0' : ¬ 2 ≤ l.length := h0
    match es, h, hlen with
    | [], _, hlen => simp at hlen; omega
    | _ :: _ :: _, _, hlen => simp at hlen; omega
    | [(n, a)], h, _ =>
      have h1 := h.first; have h2 := h.last; have h3 := h.head; have h4 := h.tail; have h5 := h.lt n (by simp)
      obtain ⟨c, _⟩ := h.seg
      simp only [hd_cons, lst_cons, hd_nil, lst_nil] at h1 h2 h3 h4 c
      simp only [step, popBack, load, h4, c, Res.ok_bind, ne_eq, reduceCtorEq, not_false_eq_true, if_true, setTail, setNext, h1, store, free,
        updateTailLinks, setPrev, h2, if_false] at hs
      injection hs with hs
      subst hs
      have hne : n ≠ m.fresh := by omega
      simp [pushBack, alloc, setPrev, setNext, store, hne, h3, load, setTail, updateTailLinks] at hp
      subst hp
      simp [toList, walk, h3, load, hne] at ht
  | popFront =>
    apply Classical.byContradiction
    intro h0
    have hv' : 0 < l.length := hv
    have h0' : ¬ 2 ≤ l.length := h0
    match es, h, hlen with
    | [], _, hlen => simp at hlen; omega
    | _ :: _ :: _, _, hlen => simp at hlen; omega
    | [(n, a)], h, _ =>
      obtain ⟨m2, b1, b2, _⟩ := C14_popFront_last_violated h (h.lt n (by simp))
      simp only [step] at hs
      rw [b1] at hs
      injection hs with hs
      subst hs
      rw [b2 x] at hp; cases hp
  | erase i =>
    apply Classical.byContradiction
    intro h0
    have hv' : i < l.length := hv
    have h0' : ¬ i + 1 < l.length := h0
    rcases snoc_cases es with rfl | ⟨A, ⟨n2, a2⟩, rfl⟩
    · simp at hlen; omega
    · rcases snoc_cases A with rfl | ⟨A, ⟨n1, a1⟩, rfl⟩
      · have hi : i = 0 := by simp at hlen; omega
        subst hi
        obtain ⟨m2, b1, b2, _⟩ := C14_popFront_last_violated h (h.lt n2 (by simp))
        have e := iterAt_ok (A := []) h (by simp)
        simp only [List.length_nil] at e
        have hh := h.head
        simp only [List.nil_append, hd_cons] at hh e
        simp only [step, e, Res.ok_bind, erase, hh, if_true, b1] at hs
        injection hs with hs
        subst hs
        rw [b2 x] at hp; cases hp
      · obtain ⟨m2, b1, b2, _⟩ := C14_erase_last_violated h
        have e := iterAt_ok (A := A ++ [(n1, a1)]) (B := [(n2, a2)]) h (by simp)
        have hi : (A ++ [(n1, a1)]).length = i := by simp at hlen ⊢; omega
        rw [hi] at e
        simp only [hd_cons] at e
        simp only [step, e, Res.ok_bind, b1] at hs
        injection hs with hs
        subst hs
        rw [b2 x] at hp; cases hp
  | eraseRange i j =>
    refine ⟨hv.1, hv.2, ?_⟩
    apply Classical.byContradiction
    intro h0
    have hv' : i ≤ j ∧ j ≤ l.length := hv
    have hne : l ≠ [] := fun e => h0 (.inr e)
    have hi : i = l.length := by
      have : ¬ i < l.length := fun e => h0 (.inl e)
      omega
    have hj : j = l.length := by omega
    have hne' : es ≠ [] := by intro e; subst e; exact hne hl.symm
    have e := iterAt_ok (A := es) (B := []) (by simpa using h) (by simpa using hne')
    rw [hlen, ← hi] at e
    have e2 : iterAt m o j = .ok (.last o) := by rw [hj, ← hi]; simpa using e
    simp only [hd_nil] at e
    simp only [step, e, e2, Res.ok_bind, C14_erase_empty_range_diverges h hne'] at hs
    cases hs

/-- Whatever a list holds, a call the caller may make leaves a working list with the right contents exactly if it is one of the `good` ones. -/
theorem C14_step_exact [Inhabited α] {m : Mem α} {o : Nat} {es : Entries α} {l : List α} (h : LInv m o es) (hnull : m.cell .null = none)
    (hl : es.map (·.2) = l) (op : Op α) (hv : valid l op) :
    (∃ m', step o m op = .ok m' ∧ Works m' o (apply l op)) ↔ good l op := by
  have hlen : es.length = l.length := by rw [← hl, List.length_map]
  constructor
  · rintro ⟨m', hs, hw⟩
    obtain ⟨m2, a, b, _⟩ := hw default (m'.fresh + 2) (by omega)
    exact LL.good_of_usable h hnull hl op hv hs a (by omega) b
  · intro hg
    by_cases hs : safe l op
    · obtain ⟨m', es', a, b, c⟩ := C14_step h hl op hs
      exact ⟨m', a, b ▸ c.inv.works⟩
    · have hw : Works m o l := hl ▸ h.works
      cases op with
      | insertRange i xs =>
        have hg' : i ≤ l.length ∧ (0 < l.length ∨ xs = []) := hg
        have hs' : ¬ (i ≤ l.length ∧ 0 < l.length) := hs
        have hx : xs = [] := hg'.2.resolve_left (fun h0 => hs' ⟨hg'.1, h0⟩)
        have hi : i = 0 := by omega
        subst hx; subst hi
        exact ⟨m, rfl, by simpa [apply] using hw⟩
      | eraseRange i j =>
        have hg' : i ≤ j ∧ j ≤ l.length ∧ (i < l.length ∨ l = []) := hg
        have hs' : ¬ (i ≤ j ∧ j ≤ l.length ∧ i < l.length) := hs
        have hx : l = [] := hg'.2.2.resolve_left (fun h0 => hs' ⟨hg'.1, hg'.2.1, h0⟩)
        subst hx
        have hij : i = 0 ∧ j = 0 := by simp at hg'; omega
        obtain ⟨rfl, rfl⟩ := hij
        have hes : es = [] := List.length_eq_zero_iff.mp (by simpa using hlen)
        subst hes
        have hh := h.head
        simp only [hd_nil] at hh
        refine ⟨m, ?_, by simpa [apply] using hw⟩
        simp [step, iterAt, eraseRange, hh, popFrontUntil]
      | insert i x => exact absurd hg hs
      | popBack => exact absurd hg hs
      | popFront => exact absurd hg hs
      | erase i => exact absurd hg hs
      | pushBack x => exact absurd trivial hs
      | pushFront x => exact absurd trivial hs
      | clean => exact absurd trivial hs

/-- A good call on a list whose links are in order leaves its links in order. -/
theorem C14_step_good [Inhabited α] {m : Mem α} {o : Nat} {es : Entries α} {l : List α} (h : LInv m o es) (hnull : m.cell .null = none)
    (hl : es.map (·.2) = l) (op : Op α) (hg : good l op) :
    ∃ m' es', step o m op = .ok m' ∧ es'.map (·.2) = apply l op ∧ LInv m' o es' ∧ m'.cell .null = none := by
  have hlen : es.length = l.length := by rw [← hl, List.length_map]
  by_cases hs : safe l op
  · obtain ⟨m', es', a, b, c⟩ := C14_step h hl op hs
    exact ⟨m', es', a, b, c.inv, by rw [c.frame .null (by simp) (by simp) (by simp) (by simp), hnull]⟩
  · cases op with
    | insertRange i xs =>
      have hg' : i ≤ l.length ∧ (0 < l.length ∨ xs = []) := hg
      have hs' : ¬ (i ≤ l.length ∧ 0 < l.length) := hs
      have hx : xs = [] := hg'.2.resolve_left (fun h0 => hs' ⟨hg'.1, h0⟩)
      have hi : i = 0 := by omega
      subst hx; subst hi
      exact ⟨m, es, rfl, by simpa [apply] using hl, h, hnull⟩
    | eraseRange i j =>
      have hg' : i ≤ j ∧ j ≤ l.length ∧ (i < l.length ∨ l = []) := hg
      have hs' : ¬ (i ≤ j ∧ j ≤ l.length ∧ i < l.length) := hs
      have hx : l = [] := hg'.2.2.resolve_left (fun h0 => hs' ⟨hg'.1, hg'.2.1, h0⟩)
      subst hx
      have hij : i = 0 ∧ j = 0 := by simp at hg'; omega
      obtain ⟨rfl, rfl⟩ := hij
      have hes : es = [] := List.length_eq_zero_iff.mp (by simpa using hlen)
      subst hes
      have hh := h.head
      simp only [hd_nil] at hh
      exact ⟨m, [], by simp [step, iterAt, eraseRange, hh, popFrontUntil], by simp [apply], h, hnull⟩
    | insert i x => exact absurd hg hs
    | popBack => exact absurd hg hs
    | popFront => exact absurd hg hs
    | erase i => exact absurd hg hs
    | pushBack x => exact absurd trivial hs
    | pushFront x => exact absurd trivial hs
    | clean => exact absurd trivial hs

theorem C14_history_exact_aux [Inhabited α] (o : Nat) (ops : List (Op α)) {m : Mem α} {es : Entries α} {l : List α} (h : LInv m o es)
    (hnull : m.cell .null = none) (hl : es.map (·.2) = l) (hv : ValidHist l ops) :
    (∀ n ≤ ops.length, ∃ m', runOps (step o) m (ops.take n) = .ok m' ∧ Works m' o (ListSpec.run l (ops.take n))) ↔ GoodHist l ops := by
  induction ops generalizing m es l with
  | nil =>
    refine ⟨fun _ => trivial, fun _ n _ => ⟨m, by simp, ?_⟩⟩
    simpa [ListSpec.run, hl] using h.works
  | cons op ops ih =>
    constructor
    · intro hall
      have hg : good l op := by
        obtain ⟨m1, a, b⟩ := hall 1 (by simp)
        refine (C14_step_exact h hnull hl op hv.1).mp ⟨m1, ?_, by simpa [ListSpec.run] using b⟩
        simp only [List.take_succ_cons, List.take_zero, runOps] at a
        split at a
        · rename_i s' e; rw [e]; exact a
        · cases a
        · cases a
      obtain ⟨m1, es1, a, b, c, d⟩ := C14_step_good h hnull hl op hg
      refine ⟨hg, (ih c d b hv.2).mp fun n hn => ?_⟩
      obtain ⟨m2, e, f⟩ := hall (n + 1) (by simpa using hn)
      rw [List.take_succ_cons, runOps_cons_ok a] at e
      exact ⟨m2, e, f⟩
    · rintro ⟨hg, hgs⟩ n hn
      cases n with
      | zero => exact ⟨m, by simp, by simpa [ListSpec.run, hl] using h.works⟩
      | succ n =>
        obtain ⟨m1, es1, a, b, c, d⟩ := C14_step_good h hnull hl op hg
        obtain ⟨m2, e, f⟩ := (ih c d b hv.2).mpr hgs n (by simpa using hn)
        exact ⟨m2, by rw [List.take_succ_cons, runOps_cons_ok a, e], f⟩

/-- For every history the caller may run on a new list: the list works after every call, with the contents the calls describe, exactly if
every call is a good one for the contents at that moment. -/
theorem C14_history_exact [Inhabited α] (o : Nat) (ops : List (Op α)) (hv : ValidHist [] ops) :
    (∀ n ≤ ops.length, ∃ m', runOps (step o) (construct emptyMem o) (ops.take n) = .ok m' ∧ Works m' o (ListSpec.run [] (ops.take n))) ↔
      GoodHist [] ops :=
  C14_history_exact_aux o ops (construct_ok emptyMem o) (by simp [construct, emptyMem, store, setHead, setTail]) rfl hv

/-- A history of good calls in which both directions of the equivalence matter. -/
example : ValidHist [] [Op.eraseRange 0 0, .insertRange 0 [], .pushBack 1, .insert 0 2, .insertRange 1 [3, 4], .popBack, .erase 1, Op.clean] ∧
    GoodHist [] [Op.eraseRange 0 0, .insertRange 0 [], .pushBack 1, .insert 0 2, .insertRange 1 [3, 4], .popBack, .erase 1, Op.clean] := by
  simp [ValidHist, GoodHist, valid, good, apply]

/-- A history the caller may run that is not a history of good calls: the list is broken. -/
example : ValidHist [] [Op.pushBack 1, .popBack] ∧ ¬ GoodHist [] [Op.pushBack 1, .popBack] := by
  simp [ValidHist, GoodHist, valid, good, apply]

namespace Flame
open LL ListSpec
example : ∃ (m : Mem Nat) (es : Entries Nat), LInv m 0 es ∧ es.map (·.2) = [4] ∧
    ((∃ m', LL.step 0 m .popBack = .ok m' ∧ Works m' 0 (apply [4] .popBack)) ↔ good [4] .popBack) := by
  obtain ⟨m, es, _, d, b, c⟩ := C14_step_good (construct_ok (emptyMem : Mem Nat) 0) rfl rfl (.pushBack 4) trivial
  exact ⟨m, es, b, d, C14_step_exact b c d .popBack (by simp [valid, apply])⟩
end Flame

end Flame
