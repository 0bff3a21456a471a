import Verif.List.Props

/-!
# C15, exactly: which lists can be copied and moved
-/

namespace Flame
open LL
variable {α : Type}

/-- **C15, exactly.**  For two different objects the copy constructor, the move constructor and move assignment give the target the source's elements exactly if the source is not empty, and a list made from
an initializer list has its elements exactly if there are some; moving a list onto itself is never defined. -/
theorem C15_exact {m : Mem α} {s d : Nat} {es ds : Entries α} {l : List α} (hs : LInv m s es) (hd : LInv m d ds) (hl : es.map (·.2) = l)
    (hsd : s ≠ d) (dj : Disj es ds) (hn : m.cell .null = none) {f : Nat} (hf : m.fresh < f) (xs : List α) :
    ((∃ m', copyCtor f m d s = .ok m' ∧ (∀ g, m'.fresh < g → toList g m' d = .ok l ∧ toList g m' s = .ok l)) ↔ l ≠ []) ∧
    ((∃ m', moveCtor m d s = .ok m' ∧ LInv m' s [] ∧ ∀ g, m'.fresh < g → toList g m' d = .ok l) ↔ l ≠ []) ∧
    ((∃ m', moveAssign f m d s = .ok m' ∧ LInv m' s [] ∧ ∀ g, m'.fresh < g → toList g m' d = .ok l) ↔ l ≠ []) ∧
    ((∃ m', ofInit m d xs = .ok m' ∧ ∀ g, m'.fresh < g → toList g m' d = .ok xs) ↔ xs ≠ []) ∧
    (∀ m', moveAssign f m d d ≠ .ok m') := by
  obtain ⟨f', rfl⟩ : ∃ f', f = f' + 1 := ⟨f - 1, by omega⟩
  have hnil : l = [] → LInv m s [] := by
    intro h
    rw [h] at hl
    rw [List.map_eq_nil_iff.mp hl] at hs
    exact hs
  refine ⟨⟨?_, ?_⟩, ⟨?_, ?_⟩, ⟨?_, ?_⟩, ⟨?_, ?_⟩, ?_⟩
  · rintro ⟨m', e, _⟩ h
    rw [(C15_empty_violated (hnil h) hsd hn f').1] at e
    cases e
  · intro h
    obtain ⟨m', _, a, _, _, _, _, b⟩ := C15_copy_partial hs hl hsd h hf
    exact ⟨m', a, b⟩
  · rintro ⟨m', e, _⟩ h
    rw [(C15_empty_violated (hnil h) hsd hn f').2] at e
    cases e
  · intro h
    obtain ⟨m', a, _, c, b⟩ := C15_move_partial hs hl hsd h
    exact ⟨m', a, c, fun g hg => (b g hg).1⟩
  · rintro ⟨m', e, _⟩ h
    rw [(C15_moveAssign_violated hd hn hf).2 s hsd (hnil h)] at e
    cases e
  · intro h
    obtain ⟨m', a, _, c, _, b⟩ := C15_moveAssign_partial hs hd hl hsd dj h hf
    exact ⟨m', a, c, fun g hg => (b g hg).1⟩
  · rintro ⟨m', e, _⟩ rfl
    rw [C15_init_empty_violated hn] at e
    cases e
  · intro h
    obtain ⟨m', _, a, _, _, b, _⟩ := C15_init_partial (m := m) (d := d) h
    exact ⟨m', a, fun g hg => (b g hg).2.1⟩
  · intro m' e
    rw [(C15_moveAssign_violated hd hn hf).1] at e
    cases e

/-- A list with two elements next to another list, in a memory whose null address holds nothing. -/
example : ∃ (m : Mem Nat) (es ds : Entries Nat), LInv m 0 es ∧ LInv m 1 ds ∧ es.map (·.2) = [1, 2] ∧ Disj es ds ∧ m.cell .null = none := by
  obtain ⟨m1, _, p1⟩ := pushBack_ok (construct_ok (emptyMem : Mem Nat) 0) 1
  obtain ⟨m2, _, p2⟩ := pushBack_ok p1.inv 2
  have q0 := construct_other (d := 1) p2.inv (by decide)
  obtain ⟨m3, _, p3⟩ := pushBack_ok (construct_ok m2 1) 3
  obtain ⟨o1, o2⟩ := p3.other q0 (by decide) (by intro n _ h; simp at h)
  have n1 : m1.cell .null = none := by
    rw [p1.frame _ (by simp) (by simp) (by simp) (by simp)]
    simp [construct, setTail, setHead, store, emptyMem]
  have n2 : m2.cell .null = none := by rw [p2.frame _ (by simp) (by simp) (by simp) (by simp)]; exact n1
  have n3 : m3.cell .null = none := by
    rw [p3.frame _ (by simp) (by simp) (by simp) (by simp)]
    simpa [construct, setTail, setHead, store] using n2
  exact ⟨m3, _, _, o1, p3.inv, rfl, o2, n3⟩

end Flame
