import Verif.Circular.Lemmas

/-! # Properties of `CircularArray` (C09, C10, C59, C60) -/

namespace Flame

/-! ## Specification: a bounded queue -/

namespace QSpec

/-- User operations of a bounded queue. -/
inductive Op (α : Type u) where
  | push (x : α)
  | pushRange (xs : List α)
  | pop
  | clean
  deriving DecidableEq

/-- What a queue of at most `N` elements holds after an operation: a push that does not fit changes nothing, a range push
is all or nothing, `pop` drops the oldest element if there is one. -/
def apply {α : Type u} (N : Nat) (l : List α) : Op α → List α
  | .push x => if l.length < N then l ++ [x] else l
  | .pushRange xs => if l.length + xs.length ≤ N then l ++ xs else l
  | .pop => l.tail
  | .clean => []

/-- A history of operations. -/
def run {α : Type u} (N : Nat) (l : List α) (ops : List (Op α)) : List α := ops.foldl (apply N) l

/-- The history never calls `clean` on a non-empty queue. -/
def CleansOnlyEmpty {α : Type u} (N : Nat) : List α → List (Op α) → Prop
  | _, [] => True
  | l, o :: os => (o = .clean → l = []) ∧ CleansOnlyEmpty N (apply N l o) os

end QSpec

namespace CArr
variable {α : Type u}

/-- One operation on the modelled array. -/
def step (triv : Bool) (c : CArr α) : QSpec.Op α → Res (CArr α)
  | .push x => pushBack c x
  | .pushRange xs => pushBackRange c xs
  | .pop => popFront triv c
  | .clean => clean triv c

end CArr

open CArr

/-- One step refines the queue. -/
theorem C09_step {α : Type u} {triv : Bool} {c : CArr α} {l : List α} (r : Rep c l) (o : QSpec.Op α)
    (h : triv = true ∨ (o = .clean → l = [])) :
    ∃ c', c.step triv o = .ok c' ∧ c'.buf.length = c.buf.length ∧ Rep c' (QSpec.apply c.capacity l o) := by
  cases o with
  | push x =>
    obtain ⟨c', h1, h2, _, h4, _⟩ := pushBack_ok r x
    exact ⟨c', h1, h2, h4⟩
  | pushRange xs =>
    obtain ⟨c', h1, h2, _, h4, _⟩ := pushBackRange_ok r xs
    exact ⟨c', h1, h2, h4⟩
  | pop =>
    obtain ⟨c', h1, h2, _, h4, _⟩ := popFront_ok r triv
    exact ⟨c', h1, h2, h4⟩
  | clean =>
    have hc := clean_ok r (triv := triv) (h.imp_right (fun f => f rfl))
    exact ⟨_, hc.1, rfl, hc.2⟩

/-- What a caller observes of an array. -/
structure CArr.Observes {α : Type u} (c : CArr α) (N : Nat) (l : List α) : Prop where
  size : c.size = l.length
  capacity : c.capacity = N
  bound : l.length ≤ N
  forward : c.toList = .ok l
  backward : c.toListReverse = .ok l.reverse

theorem observes_of_rep {α : Type u} {c : CArr α} {l : List α} {N : Nat} (r : Rep c l) (hN : c.buf.length = N + 1) :
    c.Observes N l :=
  ⟨size_eq r, by simp [capacity, hN], by have := r.len; omega, toList_ok r, toListReverse_ok r⟩

theorem C09_history_from {α : Type u} (triv : Bool) (N : Nat) (ops : List (QSpec.Op α)) :
    ∀ {c : CArr α} {l : List α}, Rep c l → c.buf.length = N + 1 →
      (triv = true ∨ QSpec.CleansOnlyEmpty N l ops) →
      ∃ c', runOps (CArr.step triv) c ops = .ok c' ∧ Rep c' (QSpec.run N l ops) ∧ c'.buf.length = N + 1 := by
  induction ops with
  | nil => intro c l r hN _; exact ⟨c, rfl, r, hN⟩
  | cons o os ih =>
    intro c l r hN h
    have hcap : c.capacity = N := by simp [capacity, hN]
    obtain ⟨c1, h1, h2, h3⟩ := C09_step r o (h.imp_right (fun f => f.1))
    rw [hcap] at h3
    obtain ⟨c', h4, h5, h6⟩ := ih h3 (by omega) (h.imp_right (fun f => f.2))
    exact ⟨c', by rw [runOps_cons_ok h1]; exact h4, h5, h6⟩

/-- **C09** for element types with trivial copy and destruction: every history of operations on a fresh array of any capacity
behaves as the bounded queue, observed through size and forward and backward iteration. -/
theorem C09_circular_array_fifo_trivial {α : Type u} (N : Nat) (ops : List (QSpec.Op α)) :
    ∃ c, runOps (CArr.step true) (CArr.empty N) ops = .ok c ∧ c.Observes N (QSpec.run N [] ops) := by
  obtain ⟨c, h1, h2, h3⟩ := C09_history_from true N ops (rep_empty N) (by simp [empty]) (Or.inl rfl)
  exact ⟨c, h1, observes_of_rep h2 h3⟩

/-- **C09 (partial)** for every element type: histories that call `clean` only on an empty array.
Missing: `clean` of a non-empty array of a type with a non-trivial destructor (`C09_clean_nontrivial_ub`). -/
theorem C09_circular_array_fifo_partial {α : Type u} (triv : Bool) (N : Nat) (ops : List (QSpec.Op α))
    (h : QSpec.CleansOnlyEmpty N [] ops) :
    ∃ c, runOps (CArr.step triv) (CArr.empty N) ops = .ok c ∧ c.Observes N (QSpec.run N [] ops) := by
  obtain ⟨c, h1, h2, h3⟩ := C09_history_from triv N ops (rep_empty N) (by simp [empty]) (Or.inr h)
  exact ⟨c, h1, observes_of_rep h2 h3⟩

example : QSpec.CleansOnlyEmpty 2 [] [.push 1, .pushRange [2, 3], .pop, .clean, .push (4 : Nat)] := by
  simp [QSpec.CleansOnlyEmpty, QSpec.apply]

/-- A wrapping history: capacity 2, five pushes and three pops. -/
example : ∃ c, runOps (CArr.step false) (CArr.empty 2)
    [.push 1, .push 2, .push 3, .pop, .push 4, .pop, .push 5, .pop, .pushRange [6, 7], .push (8 : Nat)] = .ok c ∧
    c.toList = .ok [5, 8] ∧ c.head = 0 := ⟨_, rfl, by decide, by decide⟩

/-- **C09 violated** for element types with a non-trivial destructor: `clean` of any non-empty array destroys a local copy
twice. -/
theorem C09_clean_nontrivial_ub {α : Type u} {c : CArr α} {l : List α} (r : Rep c l) (h : l ≠ []) :
    c.step false .clean = .ub := by
  show clean false c = .ub
  unfold clean; rw [toList_ok r]
  cases l with
  | nil => exact absurd rfl h
  | cons a l => rfl

/-- **C09 (exact)** for element types with a non-trivial destructor: a history behaves as the bounded queue exactly when it never
calls `clean` on a non-empty array; any other history is undefined. -/
theorem C09_nontrivial_exact {α : Type u} (N : Nat) (ops : List (QSpec.Op α)) :
    ((∃ c, runOps (CArr.step false) (CArr.empty N) ops = .ok c ∧ c.Observes N (QSpec.run N [] ops)) ↔ QSpec.CleansOnlyEmpty N [] ops) ∧
      (¬ QSpec.CleansOnlyEmpty N [] ops → runOps (CArr.step false) (CArr.empty N) ops = .ub) := by
  have key : ∀ (ops : List (QSpec.Op α)) {c : CArr α} {l : List α}, Rep c l → c.buf.length = N + 1 →
      ¬ QSpec.CleansOnlyEmpty N l ops → runOps (CArr.step false) c ops = .ub := by
    intro ops
    induction ops with
    | nil => intro c l _ _ h; exact absurd trivial h
    | cons o os ih =>
      intro c l r hN h
      have hcap : c.capacity = N := by simp [capacity, hN]
      by_cases ho : o = .clean → l = []
      · obtain ⟨c1, h1, h2, h3⟩ := C09_step r o (.inr ho)
        rw [hcap] at h3
        rw [runOps_cons_ok h1]
        exact ih h3 (by omega) (fun hc => h ⟨ho, hc⟩)
      · have ho' : o = .clean ∧ l ≠ [] := by
          by_cases hc : o = .clean
          · exact ⟨hc, fun hl => ho (fun _ => hl)⟩
          · exact absurd (fun hh => absurd hh hc) ho
        obtain ⟨rfl, hl⟩ := ho'
        simp [runOps, C09_clean_nontrivial_ub r hl]
  have hub := fun h => key ops (rep_empty N) (by simp [empty]) h
  refine ⟨⟨?_, C09_circular_array_fifo_partial false N ops⟩, hub⟩
  rintro ⟨c, hc, _⟩
  by_cases h : QSpec.CleansOnlyEmpty N [] ops
  · exact h
  · rw [hub h] at hc; cases hc

example : ∃ c, pushBack (CArr.empty 2) (7 : Nat) = .ok c ∧ Rep c [7] := by
  obtain ⟨c, h, _, _, r, _⟩ := pushBack_ok (rep_empty 2) (7 : Nat)
  exact ⟨c, h, r⟩

/-! ## C10: copies and const views -/

theorem rep_of_place {α : Type u} {b b' : Cells α} {l : List α} {own : Nat} (hl : l.length < b.length)
    (h2 : b'.length = b.length) (h3 : ∀ i a, l[i]? = some a → b'[0 + i]? = some (.live a)) :
    Rep ⟨b', 0, l.length, own⟩ l := by
  refine ⟨by simp only; omega, by simp only; omega, by simp only; omega, by simp [slot, h2, hl], ?_⟩
  intro i a hi
  have hil := (List.getElem?_eq_some_iff.mp hi).1
  have : slot b'.length 0 i = 0 + i := by unfold slot; rw [if_pos (by omega)]
  simp only [this]; exact h3 i a hi

/-- **C10 (partial)**: as long as the oldest element sits at the start of the storage (no element was ever removed from the
front, or the ring has come round exactly), const iteration, the copy constructor and copy assignment give the same
sequence as non-const iteration.
Missing: every other state (`C10_const_view_violated`). -/
theorem C10_const_view_partial {α : Type u} {c : CArr α} {l : List α} (r : Rep c l) (h0 : c.head = 0) :
    c.toListConst = .ok l ∧ (∃ c', c.copy = .ok c' ∧ Rep c' l) ∧
      (∀ (d : CArr α) (ld : List α), Rep d ld → d.buf.length = c.buf.length →
        ∃ d', assignState true d c = .ok d' ∧ Rep d' l) := by
  have e : c.toListConst = .ok l := by
    have := toList_ok r
    unfold toList at this; rw [h0] at this; exact this
  refine ⟨e, ?_, ?_⟩
  · obtain ⟨b', h1, h2, h3, _⟩ := constructList_ok (b := List.replicate c.buf.length (Cell.raw (α := α))) (xs := l) (k := 0)
      (by have := r.len; simp; omega)
    refine ⟨⟨b', 0, l.length, l.length⟩, ?_, rep_of_place (b := List.replicate c.buf.length .raw) (by simpa using r.len) h2 h3⟩
    unfold copy place; rw [e]; simp only [h1, size_eq r]
  · intro d ld rd hd
    obtain ⟨b', h1, h2, h3, _⟩ := constructList_ok (b := d.buf) (xs := l) (k := 0) (by have := r.len; omega)
    refine ⟨⟨b', 0, l.length, d.own⟩, ?_, rep_of_place (by have := r.len; omega) h2 h3⟩
    unfold assignState place; rw [(clean_ok rd (Or.inl rfl)).1, e]; simp only [h1]

example : ∃ c : CArr Nat, pushBackRange (CArr.empty 3) [4, 5] = .ok c ∧ c.head = 0 ∧ c.toListConst = .ok [4, 5] :=
  ⟨_, rfl, by decide, by decide⟩

theorem walk_hits_dead {α : Type u} {b : Cells α} {e q : Nat} (hq : b[q]? = some .raw) (hqe : q < e) :
    ∀ k f p, p + k = q → k < f → e < b.length → walk b f p e = .ub ∨ walk b f p e = .loop := by
  intro k
  induction k with
  | zero =>
    intro f p hp hf he
    obtain ⟨f, rfl⟩ : ∃ g, f = g + 1 := ⟨f - 1, by omega⟩
    have : p = q := by omega
    subst this
    left
    rw [walk, if_neg (by omega)]
    simp [Cells.get, hq]
  | succ k ih =>
    intro f p hp hf he
    obtain ⟨f, rfl⟩ : ∃ g, f = g + 1 := ⟨f - 1, by omega⟩
    have hinc : (CIter.inc b.length p).toNat = p + 1 := by unfold CIter.inc; split <;> omega
    rw [walk, if_neg (by omega), hinc]
    rcases ih f (p + 1) (by omega) (by omega) he with h | h <;> rw [h]
    · cases b.get p <;> simp
    · cases b.get p <;> simp

/-- **C10 violated** in every other state: if the oldest element is not at the start of the storage and the array is not
empty, const iteration (hence the copy constructor and copy assignment) never delivers the sequence: it accesses a slot
that holds no element. -/
theorem C10_const_view_violated {α : Type u} {c : CArr α} {l : List α} (r : Rep c l) (ns : NoStray c l)
    (hl : l ≠ []) (h0 : c.head ≠ 0) :
    (∀ l', c.toListConst ≠ .ok l') ∧ (∀ c', c.copy ≠ .ok c') ∧ (∀ t d d', assignState t d c ≠ .ok d') := by
  have hh := r.headLt; have hlen := r.len
  have hpos : 0 < l.length := List.length_pos_iff.mpr hl
  have key : ∃ q, q < l.length ∧ c.buf[q]? = some .raw := by
    by_cases hw : c.head + l.length ≤ c.buf.length
    · refine ⟨0, hpos, ns 0 r.pos ?_⟩
      intro i hi; unfold slot; split <;> omega
    · refine ⟨c.head + l.length - c.buf.length, by omega, ns _ (by omega) ?_⟩
      intro i hi; unfold slot; split <;> omega
  obtain ⟨q, hq1, hq2⟩ := key
  have hadv : advance c 0 c.size = l.length := by
    rw [size_eq r, advance_eq r.pos hlen]; unfold slot; rw [if_pos (by omega)]; omega
  have hw : c.toListConst = .ub ∨ c.toListConst = .loop := by
    unfold toListConst
    rw [hadv]
    exact walk_hits_dead hq2 hq1 q _ 0 (by omega) (by omega) hlen
  refine ⟨?_, ?_, ?_⟩
  · intro l' h'; rcases hw with h | h <;> rw [h] at h' <;> cases h'
  · intro c' h'; unfold copy at h'; rcases hw with h | h <;> rw [h] at h' <;> cases h'
  · intro t d d' h'
    unfold assignState at h'
    cases hcl : clean t d <;> rw [hcl] at h' <;> simp only at h'
    · rcases hw with h | h <;> rw [h] at h' <;> cases h'
    · cases h'
    · cases h'

/-- The hypotheses are met after `push, push, pop`. -/
example : ∃ c : CArr Nat, runOps (CArr.step false) (CArr.empty 2) [.push 1, .push 2, .pop] = .ok c ∧ Rep c [2] ∧
    NoStray c [2] ∧ c.head ≠ 0 := by
  obtain ⟨c1, h1, _, _, r1, n1⟩ := pushBack_ok (rep_empty 2) (1 : Nat)
  obtain ⟨c2, h2, _, _, r2, n2⟩ := pushBack_ok r1 (2 : Nat)
  obtain ⟨c3, h3, _, _, r3, n3⟩ := popFront_ok r2 false
  have e1 : c1 = ⟨[.live 1, .raw, .raw], 0, 1, 0⟩ := by cases h1; rfl
  subst e1
  have e2 : c2 = ⟨[.live 1, .live 2, .raw], 0, 2, 0⟩ := by cases h2; rfl
  subst e2
  have e3 : c3 = ⟨[.raw, .live 2, .raw], 1, 2, 0⟩ := by cases h3; rfl
  subst e3
  exact ⟨_, rfl, r3, n3 (n2 (n1 (noStray_empty 2))), by decide⟩

/-- **C59**: move construction from any array gives a new array with the same sequence (it iterates from the oldest element). -/
theorem C59_move_ctor {α : Type u} {c : CArr α} {l : List α} (r : Rep c l) :
    ∃ c', c.moveCtor = .ok c' ∧ c'.Observes c.capacity l := by
  have hlen := r.len
  obtain ⟨b', h1, h2, h3, _⟩ := constructList_ok (b := List.replicate c.buf.length (Cell.raw (α := α))) (xs := l) (k := 0)
    (by simp; omega)
  refine ⟨⟨b', 0, l.length, l.length⟩, ?_, observes_of_rep
    (rep_of_place (b := List.replicate c.buf.length .raw) (by simpa using hlen) h2 h3) ?_⟩
  · unfold moveCtor place; rw [toList_ok r]; simp only [h1, size_eq r]
  · simp only [h2, List.length_replicate, capacity]; omega

/-- A rotated array (oldest element at offset 1) moved. -/
example : ∃ c : CArr Nat, runOps (CArr.step false) (CArr.empty 2) [.push 1, .push 2, .pop, .push 3] = .ok c ∧
    ∃ c', c.moveCtor = .ok c' ∧ c'.toList = .ok [2, 3] := ⟨_, rfl, _, rfl, by decide⟩

/-- **C10 (partial, move assignment)**: over trivially destructible elements, or over an empty target, the target then holds
exactly the sequence of the source, wherever the source begins.  Missing: the operator has no `return` statement, so the call
itself is undefined; and a target holding elements with destructors is undefined before that (`C10_assign_nonempty_ub`). -/
theorem C10_move_assign_partial {α : Type u} {triv : Bool} {c d : CArr α} {l ld : List α} (r : Rep c l) (rd : Rep d ld)
    (hd : d.buf.length = c.buf.length) (ht : triv = true ∨ ld = []) :
    ∃ d', moveAssignState triv d c = .ok d' ∧ d'.Observes c.capacity l := by
  have hlen := r.len
  obtain ⟨b', h1, h2, h3, _⟩ := constructList_ok (b := d.buf) (xs := l) (k := 0) (by omega)
  refine ⟨⟨b', 0, l.length, d.own⟩, ?_, observes_of_rep (rep_of_place (by omega) h2 h3) ?_⟩
  · unfold moveAssignState place; rw [(clean_ok rd ht).1, toList_ok r]; simp only [h1]
  · simp only [h2, hd, capacity]; omega

/-- A rotated source assigned over a target that holds something. -/
example : ∃ c d : CArr Nat, runOps (CArr.step true) (CArr.empty 2) [.push 1, .push 2, .pop, .push 3] = .ok c ∧
    runOps (CArr.step true) (CArr.empty 2) [.push 9] = .ok d ∧ ∃ d', moveAssignState true d c = .ok d' ∧ d'.toList = .ok [2, 3] :=
  ⟨_, _, rfl, rfl, _, rfl, by decide⟩

/-- **C10**: a target that holds elements with destructors cannot be assigned to. -/
theorem C10_assign_nonempty_ub {α : Type u} {c d : CArr α} {ld : List α} (rd : Rep d ld) (h : ld ≠ []) :
    moveAssignState false d c = .ub ∧ assignState false d c = .ub := by
  have := C09_clean_nontrivial_ub rd h
  have e : clean false d = .ub := this
  constructor
  · unfold moveAssignState; rw [e]
  · unfold assignState; rw [e]

example : ∃ d, pushBack (CArr.empty 2) (7 : Nat) = .ok d ∧ Rep d [7] := by
  obtain ⟨c, h, _, _, r, _⟩ := pushBack_ok (rep_empty 2) (7 : Nat)
  exact ⟨c, h, r⟩

/-! ## C60: destruction -/

theorem destroyWalk_ok {α : Type u} {triv : Bool} {h n : Nat} :
    ∀ (k : Nat) (l : List α) (b : Cells α) (i f : Nat), b.length = n → h < n → l.length + i = k + i → k + i < n → k < f →
      (∀ j a, l[j]? = some a → b[slot n h (i + j)]? = some (.live a)) →
      ∃ b', destroyWalk triv b f (slot n h i) (slot n h (k + i)) = .ok b' ∧ b'.length = n ∧
        (∀ j, j < k → b'[slot n h (i + j)]? = some .raw) ∧
        (∀ p, p < n → (∀ j, j < k → p ≠ slot n h (i + j)) → b'[p]? = b[p]?) := by
  intro k
  induction k with
  | zero =>
    intro l b i f hn _ _ _ hf _
    obtain ⟨f, rfl⟩ : ∃ g, f = g + 1 := ⟨f - 1, by omega⟩
    exact ⟨b, by simp [destroyWalk], hn, by intro j hj; omega, fun _ _ _ => rfl⟩
  | succ k ih =>
    intro l b i f hn hh hl hk hf hc
    obtain ⟨f, rfl⟩ : ∃ g, f = g + 1 := ⟨f - 1, by omega⟩
    cases l with
    | nil => simp at hl
    | cons a l =>
      simp only [List.length_cons] at hl
      have hcell := hc 0 a (by simp)
      rw [Nat.add_zero] at hcell
      have hne : slot n h i ≠ slot n h (k + 1 + i) := by
        intro he; have := slot_inj hh (by omega) (by omega) he; omega
      obtain ⟨b', h1, h2, h3, h4⟩ := ih l (b.set (slot n h i) .raw) (i + 1) f (by simpa using hn) hh (by omega) (by omega) (by omega) (by
        intro j x hj
        have hjl := (List.getElem?_eq_some_iff.mp hj).1
        rw [List.getElem?_set_ne, show i + 1 + j = i + (j + 1) by omega, hc (j + 1) x (by simpa using hj)]
        intro he; have := slot_inj hh (by omega) (by omega) he; omega)
      have hslot : slot n h i < n := by unfold slot; split <;> omega
      refine ⟨b', ?_, h2, ?_, ?_⟩
      · rw [destroyWalk, if_neg hne]
        simp only [Cells.destroy, hcell]
        rw [hn, slot_inc hh (by omega), show k + 1 + i = k + (i + 1) by omega]; exact h1
      · intro j hj
        cases j with
        | zero =>
          rw [Nat.add_zero, h4 _ hslot (by
            intro j hj he; have := slot_inj hh (by omega) (by omega) he; omega)]
          simp [hn, hslot]
        | succ j =>
          have := h3 j (by omega)
          rwa [show i + 1 + j = i + (j + 1) by omega] at this
      · intro p hp hout
        rw [h4 p hp (fun j hj => by
          rw [show i + 1 + j = i + (j + 1) by omega]; exact hout (j + 1) (by omega)),
          List.getElem?_set_ne]
        intro he; exact hout 0 (by omega) (by rw [Nat.add_zero]; exact he.symm)

theorem destroyWalk_rep {α : Type u} (triv : Bool) {c : CArr α} {l : List α} (r : Rep c l) :
    ∃ b', destroyWalk triv c.buf (c.buf.length + 1) c.head (advance c c.head c.size) = .ok b' ∧
      b'.length = c.buf.length ∧ (∀ j, j < l.length → b'[slot c.buf.length c.head j]? = some .raw) ∧
      (∀ p, p < c.buf.length → (∀ j, j < l.length → p ≠ slot c.buf.length c.head j) → b'[p]? = c.buf[p]?) := by
  have hlen := r.len
  have e0 : slot c.buf.length c.head 0 = c.head := by unfold slot; simp [r.headLt]
  obtain ⟨b', h1, h2, h3, h4⟩ := destroyWalk_ok (triv := triv) (h := c.head) (n := c.buf.length) l.length l c.buf 0
    (c.buf.length + 1) rfl r.headLt (by omega) (by omega) (by omega) (by
      intro j a hj; rw [Nat.zero_add]; exact r.cells j a hj)
  rw [e0, Nat.add_zero] at h1
  refine ⟨b', ?_, h2, fun j hj => ?_, fun p hp ho => h4 p hp (fun j hj => ?_)⟩
  · rw [size_eq r, advance_eq r.headLt hlen]; exact h1
  · have := h3 j hj; rwa [Nat.zero_add] at this
  · rw [Nat.zero_add]; exact ho j hj

theorem own_preserved {α : Type u} {triv : Bool} {c c' : CArr α} {l : List α} (r : Rep c l) (ns : NoStray c l)
    {o : QSpec.Op α} (hne : o ≠ .clean) (h : c.step triv o = .ok c') :
    c'.own = c.own ∧ NoStray c' (QSpec.apply c.capacity l o) := by
  cases o with
  | push x =>
    obtain ⟨c2, h1, _, h3, _, h5⟩ := pushBack_ok r x
    have : c2 = c' := by have := h1.symm.trans h; cases this; rfl
    subst this; exact ⟨h3, h5 ns⟩
  | pushRange xs =>
    obtain ⟨c2, h1, _, h3, _, h5⟩ := pushBackRange_ok r xs
    have : c2 = c' := by have := h1.symm.trans h; cases this; rfl
    subst this; exact ⟨h3, h5 ns⟩
  | pop =>
    obtain ⟨c2, h1, _, h3, _, h5⟩ := popFront_ok r triv
    have : c2 = c' := by have := h1.symm.trans h; cases this; rfl
    subst this; exact ⟨h3, h5 ns⟩
  | clean => exact absurd rfl hne

/-- **C60 (partial)**: for an array built by any history of pushes and pops on a fresh array, destruction destroys every stored
element exactly once (destroying twice would be `ub`) and leaves no live element behind.
Missing: arrays made by copying or moving, and histories with `clean` (`C60_copied_destroyed_twice`, `C60_clean_leaks`). -/
theorem C60_destruction_partial {α : Type u} (triv : Bool) (N : Nat) (ops : List (QSpec.Op α)) (hops : .clean ∉ ops) :
    ∃ c b, runOps (CArr.step triv) (CArr.empty N) ops = .ok c ∧ c.destruct triv = .ok b ∧
      b = List.replicate (N + 1) .raw := by
  have key : ∀ (ops : List (QSpec.Op α)) {c : CArr α} {l : List α}, .clean ∉ ops → Rep c l → NoStray c l → c.own = 0 →
      c.buf.length = N + 1 →
      ∃ c' l', runOps (CArr.step triv) c ops = .ok c' ∧ Rep c' l' ∧ NoStray c' l' ∧ c'.own = 0 ∧ c'.buf.length = N + 1 := by
    intro ops
    induction ops with
    | nil => intro c l _ r ns ho hb; exact ⟨c, l, rfl, r, ns, ho, hb⟩
    | cons o os ih =>
      intro c l hn r ns ho hb
      have hoc : o ≠ .clean := by intro h; subst h; simp at hn
      obtain ⟨c1, h1, h2, h3⟩ := C09_step (triv := triv) r o (Or.inr (fun h => absurd h hoc))
      obtain ⟨h4, h5⟩ := own_preserved r ns hoc h1
      obtain ⟨c', l', h6, h7⟩ := ih (by intro h; exact hn (List.mem_cons_of_mem _ h)) h3 h5 (by omega) (by omega)
      exact ⟨c', l', by rw [runOps_cons_ok h1]; exact h6, h7⟩
  obtain ⟨c, l, h1, r, ns, ho, hb⟩ := key ops hops (rep_empty N) (noStray_empty N) rfl (by simp [empty])
  obtain ⟨b', d1, d2, d3, d4⟩ := destroyWalk_rep triv r
  refine ⟨c, b', h1, ?_, ?_⟩
  · unfold destruct; rw [d1, ho]; rfl
  · apply List.ext_getElem?
    intro p
    by_cases hp : p < N + 1
    · rw [List.getElem?_replicate, if_pos hp]
      by_cases hin : ∃ j, j < l.length ∧ p = slot c.buf.length c.head j
      · obtain ⟨j, hj, rfl⟩ := hin; exact d3 j hj
      · have hout : ∀ j, j < l.length → p ≠ slot c.buf.length c.head j := fun j hj he => hin ⟨j, hj, he⟩
        rw [d4 p (by omega) hout]; exact ns p (by omega) hout
    · rw [List.getElem?_replicate, if_neg hp]; exact List.getElem?_eq_none (by omega)

example : (QSpec.Op.clean : QSpec.Op Nat) ∉ [.push 1, .push 2, .pop, .pushRange [3]] := by decide

theorem placed_destroyed_twice {α : Type u} {n : Nat} {b' : Cells α} {l : List α} (hlen : l.length < n) (hl : l ≠ [])
    (h2 : b'.length = n) (h3 : ∀ i a, l[i]? = some a → b'[0 + i]? = some (.live a)) :
    (⟨b', 0, l.length, l.length⟩ : CArr α).destruct false = .ub := by
  have hpos : 0 < l.length := List.length_pos_iff.mpr hl
  have r' : Rep ⟨b', 0, l.length, l.length⟩ l :=
    rep_of_place (b := List.replicate n .raw) (by simpa using hlen) (by simpa using h2) h3
  obtain ⟨b2, d1, d2, d3, d4⟩ := destroyWalk_rep false r'
  unfold destruct
  rw [d1]
  have h0 := d3 0 hpos
  have e0 : slot b'.length 0 0 = 0 := by unfold slot; split <;> omega
  simp only [e0] at h0
  obtain ⟨m, hm⟩ : ∃ m, l.length = m + 1 := ⟨l.length - 1, by omega⟩
  simp only [hm, Cells.destroyRange, Cells.destroy, h0]
  rfl

/-- **C60 violated**: an array produced by the move constructor from any non-empty array, or by the copy constructor where
that works at all, destroys its elements twice: with a non-trivial destructor its destruction is undefined behaviour. -/
theorem C60_copied_destroyed_twice {α : Type u} {c c' : CArr α} {l : List α} (r : Rep c l) (hl : l ≠ [])
    (hm : c.moveCtor = .ok c' ∨ (c.head = 0 ∧ c.copy = .ok c')) : c'.destruct false = .ub := by
  have hlen := r.len
  obtain ⟨b', h1, h2, h3, _⟩ := constructList_ok (b := List.replicate c.buf.length (Cell.raw (α := α))) (xs := l) (k := 0)
    (by simp; omega)
  have hc' : c' = ⟨b', 0, l.length, l.length⟩ := by
    rcases hm with hm | ⟨h0, hm⟩
    · unfold moveCtor place at hm; rw [toList_ok r] at hm; simp only [h1, size_eq r] at hm
      cases hm; rfl
    · unfold copy place at hm; rw [(C10_const_view_partial r h0).1] at hm; simp only [h1, size_eq r] at hm
      cases hm; rfl
  subst hc'
  exact placed_destroyed_twice hlen hl (by simpa using h2) h3

example : ∃ c c' c'' : CArr Nat, pushBack (CArr.empty 2) 7 = .ok c ∧ c.moveCtor = .ok c' ∧ c.head = 0 ∧ c.copy = .ok c'' :=
  ⟨_, _, _, rfl, rfl, rfl, rfl⟩

/-- **C60 violated**: `clean` does not destroy the stored elements: they stay alive in storage that is later reused or
dropped. -/
theorem C60_clean_leaks {α : Type u} {c c' : CArr α} {l : List α} (r : Rep c l) {i : Nat} {a : α} (hi : l[i]? = some a)
    (h : c.step true .clean = .ok c') :
    Rep c' [] ∧ ∃ p : Nat, c'.buf[p]? = some (.live a) := by
  have hc := clean_ok r (triv := true) (Or.inl rfl)
  have : c' = { c with head := 0, tail := 0 } := by
    have := h.symm.trans hc.1; cases this; rfl
  subst this
  exact ⟨hc.2, _, r.cells i a hi⟩

example : ∃ c c' : CArr Nat, pushBack (CArr.empty 2) 7 = .ok c ∧ c.step true .clean = .ok c' := ⟨_, _, rfl, rfl⟩

end Flame

namespace Flame
open CArr

/-- **C61**: after every history of pushes, range pushes and pops, on every element type and capacity, backward iteration
delivers exactly the reverse of forward iteration, and both deliver `size()` elements. -/
theorem C61_reverse_iteration {α : Type u} (triv : Bool) (N : Nat) (ops : List (QSpec.Op α)) (hops : .clean ∉ ops) :
    ∃ c f b, runOps (CArr.step triv) (CArr.empty N) ops = .ok c ∧ c.toList = .ok f ∧ c.toListReverse = .ok b ∧
      b = f.reverse ∧ f.length = c.size := by
  have key : ∀ (ops : List (QSpec.Op α)) (l : List α), .clean ∉ ops → QSpec.CleansOnlyEmpty N l ops := by
    intro ops
    induction ops with
    | nil => intro l _; trivial
    | cons o os ih =>
      intro l h
      refine ⟨fun ho => ?_, ih _ (fun hm => h (List.mem_cons_of_mem _ hm))⟩
      subst ho; simp at h
  obtain ⟨c, h1, h2⟩ := C09_circular_array_fifo_partial triv N ops (key ops [] hops)
  exact ⟨c, _, _, h1, h2.forward, h2.backward, rfl, h2.size.symm⟩

example : (QSpec.Op.clean : QSpec.Op Nat) ∉ [.push 1, .push 2, .pop, .pushRange [3]] := by decide

namespace Flame
open CArr
example := (show ∃ c, pushBack (CArr.empty 2) (7 : Nat) = .ok c ∧ Rep c [7] from
  (pushBack_ok (rep_empty 2) (7 : Nat)).imp fun _ h => ⟨h.1, h.2.2.2.1⟩).imp fun _ h => C09_clean_nontrivial_ub h.2 (by decide)
end Flame

end Flame
