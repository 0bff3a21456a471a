import Verif.Hybrid.Copies
import Verif.Hybrid.Props

/-!
# C131: copies of a `HybridVector`
-/

namespace Flame
open HVec HybSpec
variable {α : Type}

/-- What a user of the container can see of it: that it holds the sequence `l`.  (Traversing a container without storage is undefined, C21.) -/
def HVec.Shows (h : HVec α) (l : List α) : Prop :=
  h.size = l.length ∧ (h.toList = .ok l ∨ (h = .unset ∧ l = [])) ∧ ∀ i (hi : i < l.length), h.at? i = .ok l[i]

/-- `h` holds `l`, whatever the capacity of a heap vector. -/
def HVec.Holds (N : Nat) : HVec α → List α → Prop
  | .unset, l => l = []
  | .arr s, l => SVec.Rep s l ∧ s.cap = N
  | .vec v, l => Vec.Rep v l

/-- The room a copy of `h` has. -/
def HVec.copyRoom (N : Nat) (l : List α) : HVec α → Nat
  | .unset => 0
  | .arr _ => N
  | .vec _ => l.length

/-- What moving the sequence `l` out of `h` leaves in it. -/
def HVec.left (moved : α → α) (l : List α) : HVec α → List α
  | .vec _ => []
  | _ => l.map moved

theorem HVec.HRep.holds {N : Nat} {h : HVec α} {l : List α} (hr : HRep N h l) : Holds N h l := by
  cases h with
  | unset => exact hr
  | arr s => exact hr
  | vec v => exact hr.1

theorem HVec.Holds.shows {N : Nat} {h : HVec α} {l : List α} (hr : Holds N h l) : h.Shows l := by
  match h, hr with
  | .unset, hr =>
    have hr : l = [] := hr
    subst hr
    exact ⟨rfl, Or.inr ⟨rfl, rfl⟩, fun i hi => absurd hi (by simp)⟩
  | .arr s, hr =>
    have := rep_observe (v := s.toVec) hr.1
    exact ⟨hr.1.size_eq, Or.inl (SVec.rep_toList hr.1), this.2.2.2.2⟩
  | .vec v, hr =>
    have := rep_observe (show Vec.Rep v l from hr)
    exact ⟨this.2.1, Or.inl this.1, this.2.2.2.2⟩

theorem arr_copy_ok {s : SVec α} {l : List α} (h : SVec.Rep s l) :
    ∃ t, SVec.ofOther s.cap s = .ok t ∧ SVec.Rep t l ∧ t.cap = s.cap := by
  obtain ⟨t, a, b, c⟩ := SVec.pushBackList_ok (SVec.rep_empty (α := α) s.cap) l
  have hc : (SVec.empty s.cap : SVec α).cap = s.cap := by simp [SVec.cap, SVec.empty]
  have hz := h.size_eq
  have hl := h.size_le
  refine ⟨t, ?_, ?_, by omega⟩
  · rw [SVec.ofOther, if_pos (by omega), SVec.rep_toList h, Res.ok_bind, a]
  · rw [hc, List.take_of_length_le (by simpa using hl)] at b
    simpa using b

theorem vec_copy_rep (l : List α) : Vec.Rep (⟨l.map .live, l.length, l.length⟩ : Vec α) l := ⟨by simp, rfl, [], by simp⟩

theorem copyCtor_ok {N : Nat} {h : HVec α} {l : List α} (hr : Holds N h l) :
    ∃ c, copyCtor h = .ok c ∧ Holds N c l ∧ (c = .unset ↔ h = .unset) ∧ ((∃ v, c = .vec v) ↔ ∃ v, h = .vec v) ∧
      c.capacity = copyRoom N l h := by
  match h, hr with
  | .unset, hr => exact ⟨.unset, rfl, hr, by simp, by simp, rfl⟩
  | .arr s, hr =>
    obtain ⟨t, a, b, c⟩ := arr_copy_ok hr.1
    exact ⟨.arr t, by simp only [copyCtor, a, Res.ok_bind], ⟨b, by rw [c]; exact hr.2⟩, by simp, by simp, by
      simp only [capacity]; rw [c]; exact hr.2⟩
  | .vec v, hr =>
    exact ⟨.vec ⟨l.map .live, l.length, l.length⟩, by simp only [copyCtor, copy_ok hr, Res.ok_bind], vec_copy_rep l, by simp, by simp, rfl⟩

/-- **C131 (partial)**: the copy of a container shows the same sequence, from the same kind of storage; copies in the object itself have room for
`N`, copies on the heap have none to spare.  Missing: appending to a copy (`C131_append_to_copy_diverges`). -/
theorem C131_copy_partial {N : Nat} {h : HVec α} {l : List α} (hr : Holds N h l) :
    ∃ c, copyCtor h = .ok c ∧ c.Shows l ∧ h.Shows l ∧ ((∃ v, c = .vec v) ↔ ∃ v, h = .vec v) ∧
      c.capacity = copyRoom N l h := by
  obtain ⟨c, a, b, _, d, e⟩ := copyCtor_ok hr
  exact ⟨c, a, b.shows, hr.shows, d, e⟩

theorem clone_ok (moved : α → α) {N : Nat} {h : HVec α} {l : List α} (hr : Holds N h l) :
    ∃ c, clone moved h = .ok c ∧ Holds N c l ∧ (c = .unset ↔ h = .unset) := by
  match h, hr with
  | .unset, hr => exact ⟨.unset, rfl, hr, by simp⟩
  | .arr s, hr =>
    obtain ⟨t, a, b, c⟩ := arr_copy_ok hr.1
    obtain ⟨u, a', b', c'⟩ := arr_copy_ok b
    refine ⟨.arr u, ?_, ⟨b', by rw [c', c]; exact hr.2⟩, by simp⟩
    simp only [clone, HVec.ofArray, a, Res.ok_bind, moveAssign, moveCtor, a']
  | .vec v, hr =>
    refine ⟨.vec ⟨l.map .live, l.length, l.length⟩, by simp only [clone, HVec.ofVector, copy_ok hr, Res.ok_bind, moveAssign, moveCtor, Vec.moveCtor],
      vec_copy_rep l, by simp⟩

/-- **C131**: `clone()` shows the same sequence. -/
theorem C131_clone (moved : α → α) {N : Nat} {h : HVec α} {l : List α} (hr : Holds N h l) :
    ∃ c, clone moved h = .ok c ∧ c.Shows l ∧ (c = .unset ↔ h = .unset) := by
  obtain ⟨c, a, b, d⟩ := clone_ok moved hr
  exact ⟨c, a, b.shows, d⟩

theorem movedArr_rep (moved : α → α) {s : SVec α} {l : List α} (h : SVec.Rep s l) : SVec.Rep (movedArr moved s) (l.map moved) := by
  obtain ⟨h1, h2, R, h3⟩ := h
  simp only [SVec.toVec] at h1 h2 h3
  have ht : s.buf.take s.size = l.map .live := by rw [h3, h2, List.take_left' (by simp)]
  have hd : s.buf.drop s.size = R := by rw [h3, h2, List.drop_left' (by simp)]
  refine ⟨by simp [SVec.toVec, movedArr, SVec.cap], by simpa [SVec.toVec, movedArr] using h2, R, ?_⟩
  simp [SVec.toVec, movedArr, ht, hd, List.map_map, Function.comp_def]

/-- **C131 (partial)**: moving takes the sequence over.  What is left behind: in an array, as many elements as before, all moved from; of a heap
vector, nothing. -/
theorem C131_move_partial (moved : α → α) {N : Nat} {h : HVec α} {l : List α} (hr : Holds N h l) :
    ∃ c s, moveCtor moved h = .ok (c, s) ∧ c.Shows l ∧ c.capacity = h.capacity ∧
      s.Shows (left moved l h) := by
  match h, hr with
  | .unset, hr =>
    have hr : l = [] := hr
    subst hr
    exact ⟨.unset, .unset, rfl, Holds.shows (N := N) rfl, rfl, Holds.shows (N := N) rfl⟩
  | .arr s, hr =>
    obtain ⟨t, a, b, c⟩ := arr_copy_ok hr.1
    refine ⟨.arr t, .arr (movedArr moved s), by simp only [moveCtor, a, Res.ok_bind], Holds.shows (N := N) ⟨b, by rw [c]; exact hr.2⟩,
      c, ?_⟩
    refine Holds.shows (N := N) ⟨movedArr_rep moved hr.1, ?_⟩
    have := hr.2
    simp only [SVec.cap] at this
    have hl : s.size ≤ s.buf.length := by
      have := hr.1.size_le; rw [hr.1.size_eq]; exact this
    simp [movedArr, SVec.cap]
    omega
  | .vec v, hr =>
    exact ⟨.vec v, .vec ⟨[], v.cap, 0⟩, rfl, Holds.shows (N := N) hr, rfl, rfl, Or.inl rfl, fun i hi => absurd hi (by simp [left])⟩

/-- **C131 violated**: what is left of a container moved from heap storage looks empty, but appending to it is undefined. -/
theorem C131_append_to_moved_from_ub (moved : α → α) (can : Nat → Bool) (N f : Nat) {v : Vec α} (hc : v.cap ≠ 0) (x : α) :
    ∃ c s, moveCtor moved (.vec v) = .ok (c, s) ∧ s.size = 0 ∧ s.pushBack can N (f + 1) x = .ub := by
  refine ⟨_, _, rfl, rfl, ?_⟩
  simp only [pushBack, C02_append_to_moved_from_ub can hc x f, Res.ub_bind]

/-- **C131 (partial)**: assignment from a container with storage shows the sequence of the source. -/
theorem C131_assign_partial (moved : α → α) {N : Nat} {d h : HVec α} {l : List α} (hr : Holds N h l) (hs : h ≠ .unset) :
    (∃ c, assign false d h = .ok c ∧ c.Shows l) ∧ ∃ c s, moveAssign moved d h = .ok (c, s) ∧ c.Shows l := by
  obtain ⟨c, a, b, _⟩ := copyCtor_ok hr
  obtain ⟨c', s', a', b', _⟩ := C131_move_partial moved hr
  cases h with
  | unset => exact absurd rfl hs
  | arr s => exact ⟨⟨c, a, b.shows⟩, c', s', a', b'⟩
  | vec v => exact ⟨⟨c, a, b.shows⟩, c', s', a', b'⟩

/-- **C131 violated**: assigning a container that has no storage (a new one, or one after `reset()` or after its only element was erased)
leaves the target as it was, so a target with elements keeps them. -/
theorem C131_assign_empty_violated (moved : α → α) {N : Nat} {d : HVec α} {l : List α} (hr : Holds N d l) (hl : l ≠ []) :
    (HVec.unset : HVec α).Shows [] ∧ assign false d .unset = .ok d ∧ moveAssign moved d .unset = .ok (d, .unset) ∧
      d.Shows l ∧ ¬ d.Shows [] := by
  refine ⟨Holds.shows (N := N) rfl, rfl, rfl, hr.shows, ?_⟩
  intro h
  have h1 := h.1
  have h2 := hr.shows.1
  rw [h2] at h1
  exact hl (List.eq_nil_of_length_eq_zero (by simpa using h1))

/-- **C131**: assigning to itself changes nothing. -/
theorem C131_self {N : Nat} {h : HVec α} {l : List α} (hr : Holds N h l) : ∃ c, assign true h h = .ok c ∧ c.Shows l :=
  ⟨h, rfl, hr.shows⟩

/-- **C131**: a container made from an array or a vector shows its sequence and keeps its kind of storage. -/
theorem C131_from_container (moved : α → α) {s : SVec α} {v : Vec α} {l l' : List α} (hs : SVec.Rep s l) (hv : Vec.Rep v l') :
    (∃ t, HVec.ofArray s = .ok (.arr t) ∧ (HVec.arr t).Shows l ∧ t.cap = s.cap) ∧
    (∃ w, HVec.ofVector v = .ok (.vec w) ∧ (HVec.vec w).Shows l') ∧
    (∃ t r, ofMoved moved (.arr s) = .ok (.arr t, r) ∧ (HVec.arr t).Shows l ∧ r.Shows (l.map moved)) ∧
    ∃ w r, ofMoved moved (.vec v) = .ok (.vec w, r) ∧ (HVec.vec w).Shows l' ∧ r.Shows [] := by
  obtain ⟨t, a, b, c⟩ := arr_copy_ok hs
  obtain ⟨c1, s1, e1, f1, g1, h1⟩ := C131_move_partial moved (N := s.cap) (h := .arr s) (l := l) ⟨hs, rfl⟩
  have e1' := e1
  simp only [moveCtor, a, Res.ok_bind, Res.ok.injEq, Prod.mk.injEq] at e1'
  obtain ⟨rfl, rfl⟩ := e1'
  refine ⟨⟨t, by simp only [HVec.ofArray, a, Res.ok_bind], f1, c⟩,
    ⟨⟨l'.map .live, l'.length, l'.length⟩, by simp only [HVec.ofVector, copy_ok hv, Res.ok_bind], Holds.shows (N := 0) (vec_copy_rep l')⟩,
    ⟨t, _, e1, f1, h1⟩, ⟨v, .vec ⟨[], v.cap, 0⟩, rfl, Holds.shows (N := 0) hv, rfl, Or.inl rfl, fun i hi => absurd hi (by simp)⟩⟩

/-- **C131**: there are never more elements than room for them. -/
theorem C131_capacity {N : Nat} {h : HVec α} {l : List α} (hr : Holds N h l) : h.size ≤ h.capacity := by
  match h, hr with
  | .unset, _ => exact Nat.le_refl 0
  | .arr s, hr => have := hr.1.size_le; simp only [HVec.size, capacity]; rw [hr.1.size_eq]; exact this
  | .vec v, hr => have := Vec.Rep.size_le_cap (show Vec.Rep v l from hr); simpa [HVec.size, capacity] using this

theorem hybrid_history {triv : Bool} {can : Nat → Bool} (hcan : ∀ n, can n = true) {N : Nat} (ops : List (Op α)) (f : Nat) :
    ∀ {h : HVec α} {l : List α}, HRep N h l → SafeHist triv N l ops →
      ∃ h', HRep N h' (HybSpec.run l ops) ∧ runOps (HVec.step triv can N (f + 3)) h ops = .ok h' := by
  induction ops with
  | nil => intro h l hr _; exact ⟨h, hr, rfl⟩
  | cons o os ih =>
    intro h l hr hs
    obtain ⟨h1, a, b⟩ := HVec.step_ok hcan hr o hs.1 hs.2.1 f
    obtain ⟨h2, c, d⟩ := ih b hs.2.2
    exact ⟨h2, c, by rw [runOps_cons_ok a]; exact d⟩

/-- **C131 (partial)**: copy and original live on independently: after any two histories of supported calls each of them shows what its own
history makes of the common sequence.  Missing: copies of heap storage with fewer than two elements. -/
theorem C131_independent_partial {triv : Bool} {can : Nat → Bool} (hcan : ∀ n, can n = true) {N : Nat} {h : HVec α} {l : List α}
    (hr : HRep N h l) (hl : (∃ v, h = .vec v) → 2 ≤ l.length) (ops ops' : List (Op α)) (h1 : SafeHist triv N l ops)
    (h2 : SafeHist triv N l ops') (f : Nat) :
    ∃ c h' c', copyCtor h = .ok c ∧ runOps (HVec.step triv can N (f + 3)) h ops = .ok h' ∧ h'.Shows (HybSpec.run l ops) ∧
      runOps (HVec.step triv can N (f + 3)) c ops' = .ok c' ∧ c'.Shows (HybSpec.run l ops') := by
  obtain ⟨c, a, b, _, d, e⟩ := copyCtor_ok hr.holds
  have hc : HRep N c l := by
    cases c with
    | unset => exact b
    | arr t => exact b
    | vec w => cases h with
      | unset => simp at d
      | arr s => simp at d
      | vec v => exact ⟨b, by have := hl ⟨v, rfl⟩; simp only [capacity, copyRoom] at e; omega⟩
  obtain ⟨h', p, q⟩ := hybrid_history hcan ops f hr h1
  obtain ⟨c', p', q'⟩ := hybrid_history hcan ops' f hc h2
  exact ⟨c, h', c', a, q, p.holds.shows, q', p'.holds.shows⟩

/-- **C131 violated**: appending to a copy of heap storage with one element never ends. -/
theorem C131_append_to_copy_diverges (can : Nat → Bool) (N : Nat) {v : Vec α} {a : α} (hr : Holds N (.vec v) [a]) (x : α) :
    ∃ c, copyCtor (.vec v) = .ok c ∧ c.Shows [a] ∧ ∀ f, c.pushBack can N f x = .loop := by
  obtain ⟨c, e, _, k⟩ := C02_append_to_copy_diverges can (show Vec.Rep v [a] from hr) x
  refine ⟨.vec c, by simp only [copyCtor, e, Res.ok_bind], ?_, fun f => by simp only [pushBack, k f, Res.loop_bind]⟩
  have := copy_ok (show Vec.Rep v [a] from hr)
  rw [e, Res.ok.injEq] at this
  subst this
  exact Holds.shows (N := N) (vec_copy_rep [a])

/-! ## Examples -/

/-- Storage on the heap with one element is reached by appending two and removing one, `N` being 1. -/
example : runOps (HVec.step true (fun _ => true) 1 3) (.unset : HVec Nat) [.pushBack 7, .pushBack 8, .popBack] =
    .ok (.vec ⟨[.live 7, .raw], 2, 1⟩) := by decide

example : Holds 1 (.vec ⟨[.live 7, .raw], 2, 1⟩ : HVec Nat) [7] := ⟨rfl, rfl, [.raw], rfl⟩

example : Holds 3 (.arr ⟨[.live 7, .live 8, .raw], 2⟩ : HVec Nat) [7, 8] := ⟨⟨rfl, rfl, [.raw], rfl⟩, rfl⟩

example : moveCtor (fun _ => 0) (.arr ⟨[.live 7, .live 8, .raw], 2⟩ : HVec Nat) =
    .ok (.arr ⟨[.live 7, .live 8, .raw], 2⟩, .arr ⟨[.live 0, .live 0, .raw], 2⟩) := by decide

/-- A container emptied by `erase` is assigned to one with an element. -/
example : runOps (HVec.step true (fun _ => true) 2 3) (.unset : HVec Nat) [.pushBack 7, .erase 0] = .ok .unset ∧
    assign false (.arr ⟨[.live 9, .raw], 1⟩ : HVec Nat) .unset = .ok (.arr ⟨[.live 9, .raw], 1⟩) := by decide

/-! The theorems at an array of two in room for three and at heap storage. -/

theorem HVec.exArr : Holds 3 (.arr ⟨[.live 7, .live 8, .raw], 2⟩ : HVec Nat) [7, 8] := ⟨⟨rfl, rfl, [.raw], rfl⟩, rfl⟩

theorem HVec.exVec : Holds 1 (.vec ⟨[.live 7, .raw], 2, 1⟩ : HVec Nat) [7] := ⟨rfl, rfl, [.raw], rfl⟩

example := C131_copy_partial exArr
example := C131_copy_partial exVec
example := C131_clone (fun _ => 0) exArr
example := C131_move_partial (fun _ => 0) exVec
example := C131_append_to_moved_from_ub (fun _ => 0) (fun _ => true) 1 5 (v := ⟨[.live 7, .raw], 2, 1⟩) (by decide) 9
example := C131_assign_partial (fun _ => 0) (d := .vec ⟨[.live 7, .raw], 2, 1⟩) exArr (by simp)
example := C131_assign_empty_violated (fun _ => 0) exArr (by decide)
example := C131_self exVec
example := C131_from_container (fun _ => 0) exArr.1 exVec
example := C131_capacity exArr
example := C131_append_to_copy_diverges (fun _ => true) 1 exVec 9
example := C131_independent_partial (triv := true) (can := fun _ => true) (fun _ => rfl) (N := 2) (h := (.unset : HVec Nat)) rfl (by simp)
  [.pushBack 7, .pushBack 8, .pushBack 9] [.pushBack 1] (by decide) (by decide) 3

end Flame
