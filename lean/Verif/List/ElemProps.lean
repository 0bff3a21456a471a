import Verif.List.ElemModel
import Verif.Vector.ElemGeneric

/-! # C200: a `List` of Strings -/

namespace Flame.ListSpec
variable {α β : Type}

theorem apply_map (f : α → β) (l : List α) (op : Op α) : apply (l.map f) (op.map f) = (apply l op).map f := by
  cases op <;> simp [apply, Op.map, List.map_take, List.map_drop, List.map_dropLast, List.map_tail]

theorem safe_map (f : α → β) (l : List α) (op : Op α) : safe (l.map f) (op.map f) ↔ safe l op := by
  cases op <;> simp [safe, Op.map]

theorem mem_apply {l : List α} {op : Op α} {x : α} (h : x ∈ apply l op) : x ∈ l ∨ x ∈ op.args := by
  cases op with
  | pushBack y => simpa [apply, Op.args] using h
  | pushFront y =>
    simp only [apply, List.mem_cons] at h
    rcases h with rfl | h
    · exact Or.inr (by simp [Op.args])
    · exact Or.inl h
  | insert i y =>
    simp only [apply, List.mem_append, List.mem_cons] at h
    rcases h with h | rfl | h
    · exact Or.inl (List.mem_of_mem_take h)
    · exact Or.inr (by simp [Op.args])
    · exact Or.inl (List.mem_of_mem_drop h)
  | insertRange i ys =>
    simp only [apply, List.mem_append] at h
    rcases h with h | h | h
    · exact Or.inl (List.mem_of_mem_take h)
    · exact Or.inr h
    · exact Or.inl (List.mem_of_mem_drop h)
  | popBack => exact Or.inl (List.dropLast_subset _ h)
  | popFront => exact Or.inl (List.mem_of_mem_tail h)
  | erase i =>
    simp only [apply, List.mem_append] at h
    rcases h with h | h
    · exact Or.inl (List.mem_of_mem_take h)
    · exact Or.inl (List.mem_of_mem_drop h)
  | eraseRange i j =>
    simp only [apply, List.mem_append] at h
    rcases h with h | h
    · exact Or.inl (List.mem_of_mem_take h)
    · exact Or.inl (List.mem_of_mem_drop h)
  | clean => simp [apply] at h

end Flame.ListSpec

namespace Flame.ElemList
open Flame.LL Flame.ListSpec
open Flame.ElemVec (Cls strCls copyAll copyAll_ok readTexts readTexts_ok ab ab_rep)

variable {α : Type} [DecidableEq α] {z : α}

/-- List object `o` holds the texts `ls`, in nodes of its own, all well formed strings. -/
def Holds (z : α) (m : Mem (Str α)) (o : Nat) (es : Entries (Str α)) (ls : List (List α)) : Prop :=
  LInv m o es ∧ ∃ ps : List (Str α × List α), es.map (·.2) = ps.map (·.1) ∧ ps.map (·.2) = ls ∧ ∀ p ∈ ps, Str.Rep z p.1 p.2

/-- What a user reads: `for (auto &s : list)`, each string from begin to end. -/
def texts (fuel : Nat) (m : Mem (Str α)) (o : Nat) : Res (List (List α)) := do
  let ss ← LL.toList fuel m o
  readTexts ss

/-- The same backwards. -/
def textsReverse (fuel : Nat) (m : Mem (Str α)) (o : Nat) : Res (List (List α)) := do
  let ss ← LL.toListReverse fuel m o
  readTexts ss

/-- **C200, reading.**  A list of strings that is not empty shows its texts, forwards and backwards. -/
theorem C200_read {m : Mem (Str α)} {o : Nat} {es : Entries (Str α)} {ls : List (List α)} (h : Holds z m o es ls) (hne : ls ≠ []) {f : Nat}
    (hf : m.fresh < f) : LL.size f m o = .ok ls.length ∧ texts f m o = .ok ls ∧ textsReverse f m o = .ok ls.reverse := by
  obtain ⟨hi, ps, h1, rfl, h3⟩ := h
  obtain ⟨a, b, c⟩ := C14_observe hi h1 (by intro e; apply hne; simp at e; simp [e]) hf
  refine ⟨by rw [a]; simp, by rw [texts, b, Res.ok_bind, readTexts_ok ps h3], ?_⟩
  rw [textsReverse, c, Res.ok_bind, ← List.map_reverse, ← List.map_reverse]
  exact readTexts_ok ps.reverse (fun p hp => h3 p (by simpa using hp))

theorem taken_ok (k : Nat) (op : Op (Str α × List α)) (hr : ∀ p ∈ op.args, Str.Rep z p.1 p.2) :
    ∃ op' : Op (Str α × List α), taken (strCls z k) (op.map (·.1)) = .ok (op'.map (·.1)) ∧ op'.map (·.2) = op.map (·.2) ∧
      ∀ p ∈ op'.args, Str.Rep z p.1 p.2 := by
  have one : ∀ p : Str α × List α, Str.Rep z p.1 p.2 → ∃ s', (strCls z k).copy p.1 = .ok s' ∧ Str.Rep z s' p.2 := by
    intro p hp
    obtain ⟨s', a, b, _⟩ := Str.copy_ok hp
    exact ⟨s', a, Or.inl b⟩
  cases op with
  | pushBack p =>
    obtain ⟨s', a, b⟩ := one p (hr p (by simp [Op.args]))
    exact ⟨.pushBack (s', p.2), by simp only [Op.map, taken]; rw [a]; rfl, rfl, by simpa [Op.args] using b⟩
  | pushFront p =>
    obtain ⟨s', a, b⟩ := one p (hr p (by simp [Op.args]))
    exact ⟨.pushFront (s', p.2), by simp only [Op.map, taken]; rw [a]; rfl, rfl, by simpa [Op.args] using b⟩
  | insert i p =>
    obtain ⟨s', a, b⟩ := one p (hr p (by simp [Op.args]))
    exact ⟨.insert i (s', p.2), by simp only [Op.map, taken]; rw [a]; rfl, rfl, by simpa [Op.args] using b⟩
  | insertRange i ps =>
    obtain ⟨qs, a, b, c⟩ := copyAll_ok k ps hr
    obtain ⟨rs, a', b', c'⟩ := copyAll_ok k qs c
    exact ⟨.insertRange i rs, by simp only [Op.map, taken]; rw [a, Res.ok_bind, a']; rfl, by simp [Op.map, b', b], c'⟩
  | popBack => exact ⟨.popBack, rfl, rfl, by simp [Op.args]⟩
  | popFront => exact ⟨.popFront, rfl, rfl, by simp [Op.args]⟩
  | erase i => exact ⟨.erase i, rfl, rfl, by simp [Op.args]⟩
  | eraseRange i j => exact ⟨.eraseRange i j, rfl, rfl, by simp [Op.args]⟩
  | clean => exact ⟨.clean, rfl, rfl, by simp [Op.args]⟩

/-- **C200, one call.**  A call the list supports (C14) acts on the texts as the list operation, whatever the strings look like; every other list is
left alone. -/
theorem C200_step_partial {m : Mem (Str α)} {o : Nat} {es : Entries (Str α)} {ls : List (List α)} (h : Holds z m o es ls) (k : Nat)
    (op : Op (Str α × List α)) (hr : ∀ p ∈ op.args, Str.Rep z p.1 p.2) (hs : safe ls (op.map (·.2))) :
    ∃ m' es', step (strCls z k) o m (op.map (·.1)) = .ok m' ∧ Holds z m' o es' (apply ls (op.map (·.2))) ∧ Post m m' o es es' := by
  obtain ⟨hi, ps, h1, rfl, h3⟩ := h
  obtain ⟨op', a, b, c⟩ := taken_ok k op hr
  rw [← b, safe_map] at hs
  obtain ⟨m', es', d, e, g⟩ := C14_step hi h1 (op'.map (·.1)) ((safe_map _ _ _).2 hs)
  refine ⟨m', es', by rw [step, a, Res.ok_bind, d], ⟨g.inv, apply ps op', by rw [e, apply_map], ?_, ?_⟩, g⟩
  · rw [← b, apply_map]
  · intro p hp
    rcases mem_apply hp with hp | hp
    · exact h3 p hp
    · exact c p hp

/-- A list of two strings. -/
theorem two_held : ∃ (m : Mem (Str Nat)) (es : Entries (Str Nat)), Holds 0 m 0 es [[5, 6], []] :=
  match C15_init_partial (m := emptyMem) (d := 0) (xs := [ab, Str.empty]) (by simp) with
  | ⟨m, es, _, h, e, _⟩ => ⟨m, es, h, [(ab, [5, 6]), (Str.empty, [])], e, rfl, by
      intro p hp; simp at hp; rcases hp with rfl | rfl; exact ab_rep; exact Or.inr ⟨rfl, rfl⟩⟩

example := C200_read two_held.choose_spec.choose_spec (by simp) (Nat.lt_succ_self _)
example := C200_step_partial two_held.choose_spec.choose_spec 0 (.insert 1 (ab, [5, 6])) (by simpa [Op.args] using ab_rep) (by decide)
example := C200_step_partial two_held.choose_spec.choose_spec 0 (.insertRange 2 [(ab, [5, 6]), (ab, [5, 6])])
  (by simp only [Op.args, List.mem_cons, List.not_mem_nil, or_false, or_self]; rintro p rfl; exact ab_rep) (by decide)

/-- **C200 (partial), histories.**  Every history of supported calls on a new list of strings is defined, and the texts read afterwards are those of the
same history on a plain list of texts.  (Full statement: the same for every valid call; false as for C14.) -/
theorem C200_history_partial (o k : Nat) : ∀ (ops : List (Op (Str α × List α))) {m : Mem (Str α)} {es : Entries (Str α)} {ls : List (List α)},
    Holds z m o es ls → (∀ op ∈ ops, ∀ p ∈ op.args, Str.Rep z p.1 p.2) → SafeHist ls (ops.map (·.map (·.2))) →
    ∃ m' es', runOps (step (strCls z k) o) m (ops.map (·.map (·.1))) = .ok m' ∧ Holds z m' o es' (ListSpec.run ls (ops.map (·.map (·.2)))) ∧
      (ListSpec.run ls (ops.map (·.map (·.2))) ≠ [] → texts (m'.fresh + 1) m' o = .ok (ListSpec.run ls (ops.map (·.map (·.2))))) := by
  intro ops
  induction ops with
  | nil =>
    intro m es ls h _ _
    exact ⟨m, es, rfl, h, fun hne => (C200_read h hne (Nat.lt_succ_self _)).2.1⟩
  | cons op ops ih =>
    intro m es ls h hr hs
    obtain ⟨m1, es1, a, b, _⟩ := C200_step_partial h k op (hr op (by simp)) hs.1
    obtain ⟨m2, es2, c, d, e⟩ := ih b (fun op' h' => hr op' (by simp [h'])) hs.2
    exact ⟨m2, es2, by rw [List.map_cons, runOps_cons_ok a]; exact c, d, e⟩

omit [DecidableEq α] in
/-- A new list of strings. -/
theorem new_holds (o : Nat) : Holds z (construct emptyMem o) o [] [] := ⟨construct_ok emptyMem o, [], rfl, rfl, by simp⟩

example := C200_history_partial (z := 0) 0 0 [.pushBack (ab, [5, 6]), .pushFront (Str.empty, []), .insert 1 (ab, [5, 6]), .erase 0, .popBack]
  (new_holds 0) (by
    intro op ho p hp
    simp at ho
    rcases ho with rfl | rfl | rfl | rfl | rfl <;> simp [Op.args] at hp <;> subst hp
    · exact ab_rep
    · exact Or.inr ⟨rfl, rfl⟩
    · exact ab_rep) (by decide)

/-- **C200, violated (moving in).**  Every function that takes a string by rvalue reference copies it: the list is what the copying call makes, and
the argument still holds its text, and its storage. -/
theorem C200_move_copies {m : Mem (Str α)} {o : Nat} {es : Entries (Str α)} {ls : List (List α)} (h : Holds z m o es ls) (k : Nat) {s : Str α}
    {t : List α} (hs : Str.Rep z s t) :
    (∃ m' es', pushBackMove (strCls z k) o m s = .ok (m', s) ∧ Holds z m' o es' (ls ++ [t])) ∧
    (∃ m' es', pushFrontMove (strCls z k) o m s = .ok (m', s) ∧ Holds z m' o es' (t :: ls)) ∧
    (∀ i, i ≤ ls.length → ls ≠ [] → ∃ m' es', insertMove (strCls z k) o m i s = .ok (m', s) ∧ Holds z m' o es' (ls.take i ++ t :: ls.drop i)) := by
  obtain ⟨s', a, b, _⟩ := Str.copy_ok hs
  have hc : (strCls z k).copy s = .ok s' := a
  refine ⟨?_, ?_, ?_⟩
  · obtain ⟨m', es', e, g, _⟩ := C200_step_partial h k (.pushBack (s, t)) (by simpa [Op.args] using hs) trivial
    refine ⟨m', es', ?_, g⟩
    simp only [step, Op.map, taken] at e
    rw [hc] at e
    rw [pushBackMove, hc, Res.ok_bind, show LL.pushBack m o s' = .ok m' from e]; rfl
  · obtain ⟨m', es', e, g, _⟩ := C200_step_partial h k (.pushFront (s, t)) (by simpa [Op.args] using hs) trivial
    refine ⟨m', es', ?_, g⟩
    simp only [step, Op.map, taken] at e
    rw [hc] at e
    rw [pushFrontMove, hc, Res.ok_bind, show LL.pushFront m o s' = .ok m' from e]; rfl
  · intro i hi hne
    obtain ⟨m', es', e, g, _⟩ := C200_step_partial h k (.insert i (s, t)) (by simpa [Op.args] using hs)
      ⟨hi, List.length_pos_iff.2 hne⟩
    refine ⟨m', es', ?_, g⟩
    simp only [step, Op.map, taken] at e
    rw [hc] at e
    simp only [Res.ok_bind, LL.step] at e
    obtain ⟨it, e1, e2⟩ := Res.bind_eq_ok.1 e
    rw [insertMove, hc, Res.ok_bind, e1, Res.ok_bind, e2]; rfl

example := C200_move_copies two_held.choose_spec.choose_spec 0 ab_rep

/-- **C200, copies.**  A copy of a list that is not empty holds the same texts in nodes of its own, and the source is as it was. -/
theorem C200_copy_partial {m : Mem (Str α)} {s d : Nat} {es : Entries (Str α)} {ls : List (List α)} (h : Holds z m s es ls) (hsd : s ≠ d)
    (hne : ls ≠ []) {f : Nat} (hf : m.fresh < f) (k : Nat) :
    ∃ m' ds, copyCtor (strCls z k) f m d s = .ok m' ∧ Holds z m' d ds ls ∧ Holds z m' s es ls ∧ Disj es ds := by
  obtain ⟨hi, ps, h1, rfl, h3⟩ := h
  have hps : ps ≠ [] := by rintro rfl; exact hne rfl
  obtain ⟨a, b, _⟩ := C14_observe hi h1 (by simpa using hps) hf
  obtain ⟨qs, c1, c2, c3⟩ := copyAll_ok k ps h3
  obtain ⟨rs, d1, d2, d3⟩ := copyAll_ok k qs c3
  have hrs : rs ≠ [] := by
    rintro rfl
    have := congrArg List.length (d2.trans c2)
    simp at this
    exact hps (List.eq_nil_of_length_eq_zero this.symm)
  obtain ⟨m', ds, e1, e2, e3, _, e5⟩ := C15_init_partial (m := m) (d := d) (xs := rs.map (·.1)) (by simpa using hrs)
  obtain ⟨g1, g2⟩ := e5 s es hsd hi
  refine ⟨m', ds, ?_, ⟨e2, rs, e3, d2.trans c2, d3⟩, ⟨g1, ps, h1, rfl, h3⟩, g2⟩
  rw [copyCtor, a, Res.ok_bind, if_pos (by simpa using hps), b, Res.ok_bind, c1, Res.ok_bind, d1, Res.ok_bind, e1]

example := C200_copy_partial two_held.choose_spec.choose_spec (d := 1) (by decide) (by simp) (Nat.lt_succ_self _) 0

/-- **C200, from an initializer list.**  A list made of an initializer list that is not empty holds its texts (which the initializer list has only if its
arguments were temporaries, C199). -/
theorem C200_init_partial {m : Mem (Str α)} {d : Nat} (ps : List (Str α × List α)) (hne : ps ≠ []) (hr : ∀ p ∈ ps, Str.Rep z p.1 p.2) (k : Nat) :
    ∃ m' ds, ofInit (strCls z k) m d (ps.map (·.1)) = .ok m' ∧ Holds z m' d ds (ps.map (·.2)) := by
  obtain ⟨qs, c1, c2, c3⟩ := copyAll_ok k ps hr
  obtain ⟨rs, d1, d2, d3⟩ := copyAll_ok k qs c3
  have hrs : rs ≠ [] := by
    rintro rfl
    have := congrArg List.length (d2.trans c2)
    simp at this
    exact hne (List.eq_nil_of_length_eq_zero this.symm)
  obtain ⟨m', ds, e1, e2, e3, _⟩ := C15_init_partial (m := m) (d := d) (xs := rs.map (·.1)) (by simpa using hrs)
  exact ⟨m', ds, by rw [ofInit, c1, Res.ok_bind, d1, Res.ok_bind, e1], e2, rs, e3, d2.trans c2, d3⟩

example := C200_init_partial (m := emptyMem) (d := 0) [(ab, [5, 6]), (Str.empty, [])] (by simp)
  (by intro p hp; simp at hp; rcases hp with rfl | rfl; exact ab_rep; exact Or.inr ⟨rfl, rfl⟩) 0

end Flame.ElemList
