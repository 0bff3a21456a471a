import Verif.Circular.Vector

/-!
# C125: circular vectors
-/

namespace Flame.CVec
open Flame.Own

structure Inv (s : St) : Prop where
  ledger : Ledger (owner s) s.log
  fresh : ∀ r, .made r ∈ s.log → r < s.next
  /-- the first and the last element are the same -/
  same : ∀ i v, s.vars i = some v → v.head = v.tail

theorem size_same {v : Var} (h : v.head = v.tail) : size v = .ok 0 := by
  unfold size; rw [← h]
  cases v.head with
  | none => rfl
  | some p => simp

theorem alloc_inv {s : St} (h : Inv s) {i : Nat} (hi : s.vars i = none) (n : Nat) (mem : Bool) : Inv (alloc s i n mem) := by
  unfold alloc
  cases mem with
  | true =>
    have h1 : .made s.next ∉ s.log := fun hm => Nat.lt_irrefl _ (h.fresh _ hm)
    have h2 : .closed s.next ∉ s.log := fun hc => h1 (closed_made h.ledger.proper hc)
    refine ⟨(h.ledger.make (i := i) (by simp [owner, hi]) h1 h2).congr ?_, ?_, ?_⟩
    · intro k
      by_cases hk : k = i
      · subst hk; simp [owner]
      · simp [owner, upd, hk]
    · intro r hr
      rcases List.mem_cons.mp hr with h' | h'
      · injection h' with h'; subst h'; exact Nat.lt_succ_self _
      · exact Nat.lt_succ_of_lt (h.fresh r h')
    · intro k v hv
      by_cases hk : k = i
      · subst hk; simp at hv; subst hv; rfl
      · simp [upd, hk] at hv; exact h.same k v hv
  | false =>
    refine ⟨h.ledger.congr ?_, h.fresh, ?_⟩
    · intro k
      by_cases hk : k = i
      · subst hk; simp [owner, hi]
      · simp [owner, upd, hk]
    · intro k v hv
      by_cases hk : k = i
      · subst hk; simp at hv; subst hv; rfl
      · simp [upd, hk] at hv; exact h.same k v hv

theorem step_ok {s : St} (h : Inv s) {o : Op} (hp : careful s o) : ∃ s', step s o = .ok s' ∧ Inv s' := by
  cases o with
  | default i =>
    simp only [careful] at hp
    refine ⟨{ s with vars := upd s.vars i (some empty) }, by simp [step, hp], h.ledger.congr ?_, h.fresh, ?_⟩
    · intro k
      by_cases hk : k = i
      · subst hk; simp [owner, hp, empty]
      · simp [owner, upd, hk]
    · intro k v hv
      by_cases hk : k = i
      · subst hk; simp at hv; subst hv; rfl
      · simp [upd, hk] at hv; exact h.same k v hv
  | range i n mem => exact ⟨alloc s i n mem, by simp only [careful] at hp; simp [step, hp], alloc_inv h hp n mem⟩
  | copy i j mem =>
    obtain ⟨hi, hj⟩ := hp
    cases hv : s.vars j with
    | none => exact absurd hv hj
    | some v => exact ⟨alloc s i 0 mem, by simp [step, hi, hv, size_same (h.same j v hv)], alloc_inv h hi 0 mem⟩
  | moveCtor i j =>
    obtain ⟨hi, hj⟩ := hp
    cases hv : s.vars j with
    | none => exact absurd hv hj
    | some v =>
      have hij : i ≠ j := by intro e; subst e; rw [hi] at hv; cases hv
      refine ⟨{ s with vars := upd (upd s.vars i (some v)) j (some ⟨none, none, none, 0⟩) }, by simp [step, hi, hv],
        (h.ledger.move (i := i) (j := j) (by simp [owner, hi]) hij).congr ?_, h.fresh, ?_⟩
      · intro k
        by_cases hkj : k = j
        · subst hkj; simp [owner]
        · by_cases hki : k = i
          · subst hki; simp [owner, upd, hkj, hv]
          · simp [owner, upd, hkj, hki]
      · intro k w hw
        by_cases hkj : k = j
        · subst hkj; simp at hw; subst hw; rfl
        · by_cases hki : k = i
          · subst hki; simp [upd, hkj] at hw; subst hw; exact h.same j v hv
          · simp [upd, hkj, hki] at hw; exact h.same k w hw
  | assign i j => exact absurd hp id
  | moveAssign i j => exact absurd hp id
  | drop i =>
    simp only [careful] at hp
    cases hv : s.vars i with
    | none => exact absurd hv hp
    | some v =>
      have hs : ∀ k w, upd s.vars i none k = some w → w.head = w.tail := by
        intro k w hw
        by_cases hk : k = i
        · subst hk; simp at hw
        · simp [upd, hk] at hw; exact h.same k w hw
      cases ha : v.array with
      | none =>
        refine ⟨{ s with vars := upd s.vars i none }, by simp [step, hv, ha], h.ledger.congr ?_, h.fresh, hs⟩
        intro k
        by_cases hk : k = i
        · subst hk; simp [owner, hv, ha]
        · simp [owner, upd, hk]
      | some r =>
        have ho : owner s i = some r := by simp [owner, hv, ha]
        refine ⟨{ s with vars := upd s.vars i none, log := .closed r :: s.log },
          by simp [step, hv, ha, h.ledger.ownedLive i r ho], (h.ledger.close ho).congr ?_, ?_, hs⟩
        · intro k
          by_cases hk : k = i
          · subst hk; simp [owner]
          · simp [owner, upd, hk]
        · intro q hq
          exact h.fresh q (by simpa using hq)

theorem reach_inv {s : St} (hr : Reach step careful start s) : Inv s := by
  refine hr.inv ⟨Ledger.init.congr (fun _ => rfl), by simp [start], by simp [start]⟩ ?_
  intro s o s' h hp hs
  obtain ⟨t, ht, hi⟩ := step_ok h hp
  rw [ht] at hs; cases hs; exact hi

end Flame.CVec

namespace Flame
open Own CVec

/-- **C125 (partial)**: over every history without assignments, every block is freed exactly once, by the variable that owns it.
Missing: assignments, which are undefined (`C125_ub_iff`). -/
theorem C125_blocks_partial {s : CVec.St} (hr : Reach CVec.step CVec.careful CVec.start s) :
    Proper s.log ∧ (∀ o, CVec.careful s o → ∃ s', CVec.step s o = .ok s') ∧ ((∀ i, s.vars i = none) → ReleasedOnce s.log) := by
  have h := CVec.reach_inv hr
  refine ⟨h.ledger.proper, fun o ho => ?_, fun hg => h.ledger.releasedOnce (fun i => by simp [CVec.owner, hg])⟩
  obtain ⟨s', hs, _⟩ := CVec.step_ok h ho
  exact ⟨s', hs⟩

example : ∃ s, Reach CVec.step CVec.careful CVec.start s ∧
    (s.log, s.vars 0, s.vars 1, s.vars 2) = ([.closed 0, .closed 1, .made 1, .made 0], none, none, none) :=
  Reach.witness (step := CVec.step) (pre := CVec.careful) (s₀ := CVec.start)
    [.range 0 5 true, .copy 1 0 true, .moveCtor 2 0, .drop 1, .drop 0, .drop 2]
    (fun s => (s.log, s.vars 0, s.vars 1, s.vars 2)) _ (by decide)

/-- **C125, violated**: no history puts an element into a circular vector. -/
theorem C125_always_empty {s : CVec.St} (hr : Reach CVec.step CVec.careful CVec.start s) {i : Nat} {v : CVec.Var} (hv : s.vars i = some v) :
    CVec.size v = .ok 0 := CVec.size_same ((CVec.reach_inv hr).same i v hv)

example : ∃ s, Reach CVec.step CVec.careful CVec.start s ∧ (s.vars 0).isSome = true :=
  Reach.witness (step := CVec.step) (pre := CVec.careful) (s₀ := CVec.start) [.range 0 5 true] (fun s => (s.vars 0).isSome) _ (by decide)

/-- **C125, violated**: a vector made from a range of `n` elements has room for them (if there was memory) but is empty. -/
theorem C125_range_violated (s : CVec.St) {i n : Nat} (hi : s.vars i = none) (hn : n < 2 ^ 64 - 1) :
    ∃ s' v, CVec.step s (.range i n true) = .ok s' ∧ s'.vars i = some v ∧ CVec.capacity v = n ∧ v.array = some s.next ∧
      CVec.size v = .ok 0 := by
  refine ⟨CVec.alloc s i n true, ⟨some s.next, some (s.next, 0), some (s.next, 0), (n + 1) % 2 ^ 64⟩, by simp [CVec.step, hi],
    by simp [CVec.alloc], ?_, rfl, by simp [CVec.size]⟩
  simp only [CVec.capacity]; omega

example : CVec.start.vars 0 = none ∧ 5 < 2 ^ 64 - 1 := by decide

/-- Without memory the vector has no storage and the same capacity. -/
theorem C125_no_memory_violated (s : CVec.St) {i n : Nat} (hi : s.vars i = none) (hn : n < 2 ^ 64 - 1) :
    ∃ s' v, CVec.step s (.range i n false) = .ok s' ∧ s'.vars i = some v ∧ CVec.capacity v = n ∧ v.array = none := by
  refine ⟨CVec.alloc s i n false, ⟨none, none, none, (n + 1) % 2 ^ 64⟩, by simp [CVec.step, hi], by simp [CVec.alloc], ?_, rfl⟩
  simp only [CVec.capacity]; omega

example : CVec.start.vars 0 = none ∧ 5 < 2 ^ 64 - 1 := by decide

/-- **C125, violated**: a copy has no room, whatever the original has. -/
theorem C125_copy_violated {s : CVec.St} (hr : Reach CVec.step CVec.careful CVec.start s) {i j : Nat} (hi : s.vars i = none)
    (hj : s.vars j ≠ none) (mem : Bool) :
    ∃ s' v, CVec.step s (.copy i j mem) = .ok s' ∧ s'.vars i = some v ∧ CVec.capacity v = 0 ∧ CVec.size v = .ok 0 ∧
      (v.array = some s.next ↔ mem = true) := by
  cases hv : s.vars j with
  | none => exact absurd hv hj
  | some w =>
    have hs := C125_always_empty hr hv
    cases mem with
    | true =>
      exact ⟨CVec.alloc s i 0 true, ⟨some s.next, some (s.next, 0), some (s.next, 0), 1⟩, by simp [CVec.step, hi, hv, hs],
        by simp [CVec.alloc], by simp [CVec.capacity], by simp [CVec.size], by simp⟩
    | false =>
      exact ⟨CVec.alloc s i 0 false, ⟨none, none, none, 1⟩, by simp [CVec.step, hi, hv, hs],
        by simp [CVec.alloc], by decide, by simp [CVec.size], by simp⟩

/-- A vector with room for five elements. -/
example : ∃ s, Reach CVec.step CVec.careful CVec.start s ∧ ((s.vars 0).map CVec.capacity, s.vars 1) = (some 5, none) :=
  Reach.witness (step := CVec.step) (pre := CVec.careful) (s₀ := CVec.start) [.range 0 5 true]
    (fun s => ((s.vars 0).map CVec.capacity, s.vars 1)) _ (by decide)

/-- **C125, violated**: a default constructed vector has no storage and the largest capacity there is; the same holds for the source
of a move. -/
theorem C125_default_violated (s : CVec.St) {i : Nat} (hi : s.vars i = none) :
    ∃ s' v, CVec.step s (.default i) = .ok s' ∧ s'.vars i = some v ∧ v.array = none ∧ CVec.capacity v = 2 ^ 64 - 1 :=
  ⟨{ s with vars := upd s.vars i (some CVec.empty) }, CVec.empty, by simp [CVec.step, hi], by simp, rfl, by decide⟩

example : ∃ s, Reach CVec.step CVec.careful CVec.start s ∧ ((s.vars 0).isSome, s.vars 1) = (true, none) :=
  Reach.witness (step := CVec.step) (pre := CVec.careful) (s₀ := CVec.start) [.range 0 5 true] (fun s => ((s.vars 0).isSome, s.vars 1)) _ (by decide)

/-- **C125**: moving hands over everything and leaves a default constructed vector. -/
theorem C125_move {s : CVec.St} {i j : Nat} {v : CVec.Var} (hi : s.vars i = none) (hj : s.vars j = some v) :
    ∃ s', CVec.step s (.moveCtor i j) = .ok s' ∧ s'.vars i = some v ∧ s'.vars j = some CVec.empty ∧ s'.log = s.log ∧
      ∀ k, k ≠ i → k ≠ j → s'.vars k = s.vars k := by
  have hij : i ≠ j := by intro e; subst e; rw [hi] at hj; cases hj
  exact ⟨{ s with vars := upd (upd s.vars i (some v)) j (some CVec.empty) }, by simp [CVec.step, hi, hj, CVec.empty], by simp [upd, hij], by simp [CVec.empty], rfl, fun k h1 h2 => by simp [upd, h1, h2]⟩

example : ∃ s, Reach CVec.step CVec.careful CVec.start s ∧ (s.vars 1, (s.vars 0).map CVec.capacity) = (none, some 5) :=
  Reach.witness (step := CVec.step) (pre := CVec.careful) (s₀ := CVec.start) [.range 0 5 true]
    (fun s => (s.vars 1, (s.vars 0).map CVec.capacity)) _ (by decide)

/-- **C125, violated**: in every history exactly the assignments are undefined (and what is no program: using variables that do not
exist or declaring one twice). -/
theorem C125_ub_iff {s : CVec.St} (hr : Reach CVec.step CVec.careful CVec.start s) (o : CVec.Op) :
    CVec.step s o = .ub ↔ ¬ CVec.careful s o := by
  constructor
  · intro h hc
    obtain ⟨s', hs, _⟩ := CVec.step_ok (CVec.reach_inv hr) hc
    rw [hs] at h; cases h
  · intro h
    cases o with
    | default i => simp only [CVec.careful] at h; cases hv : s.vars i <;> simp_all [CVec.step]
    | range i n mem => simp only [CVec.careful] at h; cases hv : s.vars i <;> simp_all [CVec.step]
    | copy i j mem => simp only [CVec.careful] at h; cases hv : s.vars i <;> cases hw : s.vars j <;> simp_all [CVec.step]
    | moveCtor i j => simp only [CVec.careful] at h; cases hv : s.vars i <;> cases hw : s.vars j <;> simp_all [CVec.step]
    | assign i j => rfl
    | moveAssign i j => rfl
    | drop i => simp only [CVec.careful] at h; cases hv : s.vars i <;> simp_all [CVec.step]

example : ∃ s, Reach CVec.step CVec.careful CVec.start s ∧ ((s.vars 1).isSome, (s.vars 0).isSome) = (true, true) :=
  Reach.witness (step := CVec.step) (pre := CVec.careful) (s₀ := CVec.start) [.range 0 5 true, .default 1]
    (fun s => ((s.vars 1).isSome, (s.vars 0).isSome)) _ (by decide)

end Flame
