import Verif.Own.Truth

/-! # C144, C145: testing and comparing holders and addresses -/

namespace Flame
open Own Own.Truth Conc

/-! ## C144: an object tests true exactly if it holds something -/

/-- **C144.** Testing a shared pointer answers true if it points at an existing object; it never answers false, and everything else is undefined. -/
theorem C144_shared_exact (s : Shared.St) (i : Nat) (b : Bool) :
    shared s i = .ok b ↔ b = true ∧ ∃ r, s.vars[i]? = some (.ptr r) ∧ Live r s.log := by
  unfold shared
  cases h : s.vars[i]? with
  | none => simp
  | some p =>
    cases p with
    | ptr r => by_cases hl : Live r s.log <;> simp [hl, eq_comm]
    | _ => simp

/-- The test is as dangerous as the use it is meant to guard: it is defined exactly when dereferencing is. -/
theorem C144_shared_guards_nothing (s : Shared.St) (i : Nat) :
    (∃ b, shared s i = .ok b) ↔ ∃ s', Shared.step s (.deref i) = .ok s' := by
  rw [C30_deref_iff]
  constructor
  · rintro ⟨b, h⟩; exact ((C144_shared_exact s i b).1 h).2
  · intro h; exact ⟨true, (C144_shared_exact s i true).2 ⟨rfl, h⟩⟩

/-- Every way to obtain a pointer without an object makes its test undefined: moving away from it, failed allocation, default construction. -/
theorem C144_shared_empty_ub (s s' : Shared.St) :
    (∀ j, Shared.step s (.moveCtor j) = .ok s' → shared s' j = .ub) ∧
    (∀ i j, i ≠ j → Shared.step s (.moveAssign i j) = .ok s' → shared s' j = .ub) ∧
    (Shared.step s (.create false) = .ok s' → shared s' s.vars.length = .ub) ∧
    (Shared.step s .defaultCtor = .ok s' → shared s' s.vars.length = .ub) := by
  refine ⟨fun j h => ?_, fun i j hij h => ?_, fun h => ?_, fun h => ?_⟩
  · simp only [Shared.step] at h
    split at h
    · rename_i e
      injection h with h
      have hj : j < s.vars.length := (List.getElem?_eq_some_iff.1 e).1
      subst h
      simp [shared, List.getElem?_append_left hj, e]
    · rename_i r e
      injection h with h
      have hj : j < s.vars.length := (List.getElem?_eq_some_iff.1 e).1
      subst h
      have : j < (s.vars.set j .null).length := by simpa using hj
      simp [shared, List.getElem?_append_left this, List.getElem?_set, hj]
    · cases h
  · simp only [Shared.step] at h
    split at h
    · rename_i s₁ e₁
      split at h
      · rename_i e
        injection h with h
        have hj : j < s₁.vars.length := (List.getElem?_eq_some_iff.1 e).1
        subst h
        simp [shared, List.getElem?_set, hj]
      · rename_i r e
        injection h with h
        have hj : j < s₁.vars.length := (List.getElem?_eq_some_iff.1 e).1
        subst h
        simp [shared, List.getElem?_set, hj]
      · cases h
    · cases h
    · cases h
  · simp only [Shared.step, Bool.false_eq_true, if_false] at h
    injection h with h
    subst h
    simp [shared]
  · simp only [Shared.step] at h
    injection h with h
    subst h
    simp [shared]

/-- On a machine that just computes the address, a null shared pointer tests true: the object lies behind the counter. -/
theorem C144_shared_null_true {offset : BitVec 64} (h : offset ≠ 0#64) : sharedFlat 0#64 offset = true := by
  simp [sharedFlat, h]

/-- In general the answer is false for one value of the pointer only, which is never null. -/
theorem C144_shared_flat_exact (members offset : BitVec 64) :
    sharedFlat members offset = false ↔ members = -offset := by
  simp only [sharedFlat, bne_eq_false_iff_eq]
  constructor
  · intro h
    have := congrArg (· - offset) h
    simp only [BitVec.add_sub_cancel] at this
    rw [this, BitVec.zero_sub]
  · intro h
    rw [h, BitVec.add_comm, BitVec.add_right_neg]

/-- **C144.** Testing a unique pointer is defined for every variable and says exactly whether it owns an object, which then exists. -/
theorem C144_unique_exact {s : Unique.St} (h : Reach Unique.step Unique.pre Unique.init s) {i : Nat} (hi : s.vars i ≠ none) :
    ∃ b, unique s i = .ok b ∧ (b = true ↔ ∃ r, Unique.owner s i = some r ∧ Live r s.log) := by
  cases e : s.vars i with
  | none => exact absurd e hi
  | some p =>
    refine ⟨p.isSome, by simp [unique, e], ?_⟩
    cases p with
    | none => simp [Unique.owner, e]
    | some r =>
      have ho : Unique.owner s i = some r := by simp [Unique.owner, e]
      simp only [Option.isSome_some, true_iff]
      exact ⟨r, ho, (C29_unique_owner h).1.ownedLive i r ho⟩

/-- … so it can guard a use: exactly the pointers that test true can be dereferenced. -/
theorem C144_unique_guards {s : Unique.St} (h : Reach Unique.step Unique.pre Unique.init s) {i : Nat} :
    unique s i = .ok true ↔ ∃ s', Unique.step s (.deref i) = .ok s' := by
  constructor
  · intro ht
    refine (C29_unique_owner h).2 _ ?_
    cases e : s.vars i with
    | none => simp [unique, e] at ht
    | some p => cases p <;> simp [unique, e, Unique.pre] at ht ⊢
  · rintro ⟨s', hs⟩
    simp only [Unique.step] at hs
    split at hs
    · rename_i r e; simp [unique, e]
    · cases hs

/-- **C144.** Testing an optional is defined for every variable and says exactly whether it holds a value. -/
theorem C144_optional_exact {V : Type} {moved : V → V} {s : Life.Optional.St V}
    (h : Reach (Life.Optional.step moved) Life.Optional.safe Life.Optional.init s) {i : Nat} {o : Option V}
    (hc : Life.Optional.contents s i = some o) : optional s i = .ok o.isSome := by
  have hb := C32_bool_exact h hc
  unfold Life.Optional.isFill at hb
  unfold Truth.optional
  cases e : s.vars i with
  | none => simp [Life.Optional.contents, e] at hc
  | some x => simp only [e] at hb ⊢; rw [hb]

/-! ### C144: cases -/

/-- A shared pointer with an object and one moved away. -/
example : ∃ s, Reach Shared.step Shared.pre Shared.init s ∧ (shared s 0, shared s 1) = (.ub, .ok true) :=
  Reach.witness [.create true, .moveCtor 0] _ _ (by decide +kernel)

/-- Null members, an `int` behind an eight byte counter. -/
example : sharedFlat 0#64 8#64 = true := C144_shared_null_true (by decide)

/-- Unique pointers with and without an object. -/
example : ∃ s, Reach Unique.step Unique.pre Unique.init s ∧ (unique s 0, unique s 1) = (.ok false, .ok true) :=
  Reach.witness [.create 0 true, .moveCtor 1 0] _ _ (by decide +kernel)

/-! ## C145: equality compares what the objects hold or denote -/

/-- The built-in comparison of converted operands. -/
theorem builtin_spec (a b : Bool) : builtinEq a b = (a == b) ∧ builtinNe a b = (a != b) ∧ builtinLt a b = (!a && b) := by
  cases a <;> cases b <;> decide

/-- **C145 is false for optionals**: `==` only compares whether they are filled; two filled ones are equal whatever they hold. -/
theorem C145_optional_exact {V : Type} {moved : V → V} {s : Life.Optional.St V}
    (h : Reach (Life.Optional.step moved) Life.Optional.safe Life.Optional.init s) {i j : Nat} {x y : Option V}
    (hi : Life.Optional.contents s i = some x) (hj : Life.Optional.contents s j = some y) :
    optionalEq s i j = .ok (x.isSome == y.isSome) ∧ optionalNe s i j = .ok (x.isSome != y.isSome) := by
  simp only [optionalEq, optionalNe, C144_optional_exact h hi, C144_optional_exact h hj, both, builtin_spec, and_self]

/-- … so `==` is right exactly unless both are filled with different values. -/
theorem C145_optional_right_iff {V : Type} [DecidableEq V] {moved : V → V} {s : Life.Optional.St V}
    (h : Reach (Life.Optional.step moved) Life.Optional.safe Life.Optional.init s) {i j : Nat} {x y : Option V}
    (hi : Life.Optional.contents s i = some x) (hj : Life.Optional.contents s j = some y) :
    optionalEq s i j = .ok (decide (x = y)) ↔ ¬ ∃ a b, x = some a ∧ y = some b ∧ a ≠ b := by
  rw [(C145_optional_exact h hi hj).1]
  cases x <;> cases y <;> simp

/-- **C145.** Comparing an optional with a number compares 1 (filled) or 0 (empty) with it, whatever is held. -/
theorem C145_optional_number {V : Type} {moved : V → V} {s : Life.Optional.St V}
    (h : Reach (Life.Optional.step moved) Life.Optional.safe Life.Optional.init s) {i : Nat} {o : Option V}
    (hi : Life.Optional.contents s i = some o) (x : Int) :
    optionalEqInt s i x = .ok true ↔ (x = 1 ∧ ∃ v, o = some v) ∨ (x = 0 ∧ o = none) := by
  simp only [optionalEqInt, C144_optional_exact h hi]
  cases o with
  | none => simp [promote, @eq_comm _ (0 : Int) x]
  | some v => simp [promote, @eq_comm _ (1 : Int) x]

/-- **C145 is false for shared pointers**: a comparison that is defined answers "equal", whatever the two point at; `!=` never answers true. -/
theorem C145_shared_exact (s : Shared.St) (i j : Nat) (b : Bool) :
    sharedEq s i j = .ok b ↔ b = true ∧ (∃ r, s.vars[i]? = some (.ptr r) ∧ Live r s.log) ∧
      ∃ r, s.vars[j]? = some (.ptr r) ∧ Live r s.log := by
  have hi := C144_shared_exact s i
  have hj := C144_shared_exact s j
  unfold sharedEq both
  constructor
  · intro h
    split at h
    · rename_i x y ex ey
      obtain ⟨rfl, h1⟩ := (hi _).1 ex
      obtain ⟨rfl, h2⟩ := (hj _).1 ey
      injection h with h
      exact ⟨h.symm.trans rfl, h1, h2⟩
    · cases h
    · cases h
  · rintro ⟨rfl, h1, h2⟩
    rw [(hi true).2 ⟨rfl, h1⟩, (hj true).2 ⟨rfl, h2⟩]
    rfl

/-- **C145 is false for unique pointers**: any two that own an object are equal, although two variables never own the same object. -/
theorem C145_unique_violated {s : Unique.St} (h : Reach Unique.step Unique.pre Unique.init s) {i j a b : Nat} (hij : i ≠ j)
    (hi : Unique.owner s i = some a) (hj : Unique.owner s j = some b) : a ≠ b ∧ uniqueEq s i j = .ok true := by
  constructor
  · rintro rfl
    exact hij ((C29_unique_owner h).1.unique i j a hi hj)
  · have e : ∀ {k c}, Unique.owner s k = some c → s.vars k = some (some c) := by
      intro k c hk
      unfold Unique.owner at hk
      cases e : s.vars k with
      | none => simp [e] at hk
      | some p => simp only [e, Option.join_some] at hk; rw [hk]
    simp [uniqueEq, both, unique, e hi, e hj, builtin_spec]

/-- … for distinct variables the answer is right exactly unless both own an object. -/
theorem C145_unique_right_iff {s : Unique.St} (h : Reach Unique.step Unique.pre Unique.init s) {i j : Nat} (hij : i ≠ j) {p q : Option Nat}
    (hi : s.vars i = some p) (hj : s.vars j = some q) :
    uniqueEq s i j = .ok (decide (p = q)) ↔ p = none ∨ q = none := by
  cases p with
  | none => cases q <;> simp [uniqueEq, both, unique, hi, hj, builtin_spec]
  | some a =>
    cases q with
    | none => simp [uniqueEq, both, unique, hi, hj, builtin_spec]
    | some b =>
      obtain ⟨hn, ht⟩ := C145_unique_violated h hij (a := a) (b := b) (by simp [Unique.owner, hi]) (by simp [Unique.owner, hj])
      simp [ht, hn]

/-- **C145 is false for addresses**: `==` of two `Ipv4` objects compares their validity; neither numbers nor ports take part. -/
theorem C145_ipv4_exact (a b : Ipv4.Obj) :
    (ipv4Eq a b = true ↔ (a.valid = true ↔ b.valid = true)) ∧ ipv4Ne a b = !ipv4Eq a b := by
  simp only [ipv4Eq, ipv4Ne, builtin_spec]
  cases a.valid <;> cases b.valid <;> decide

/-- … so any two addresses whose numbers are in range are equal. -/
theorem C145_ipv4_violated {a b : Ipv4.Obj} (ha : ∀ x ∈ a.ip, 0 ≤ x ∧ x ≤ 255) (hb : ∀ x ∈ b.ip, 0 ≤ x ∧ x ≤ 255) :
    ipv4Eq a b = true ∧ ipv4Ne a b = false := by
  have h : ∀ {o : Ipv4.Obj}, (∀ x ∈ o.ip, 0 ≤ x ∧ x ≤ 255) → o.valid = true := by
    intro o ho
    simpa [Ipv4.Obj.valid] using ho
  have := (C145_ipv4_exact a b)
  rw [this.2, this.1.2 (by simp [h ha, h hb])]
  exact ⟨rfl, rfl⟩

/-- **C145.** `==` of accepted connections is equality of both descriptors. -/
theorem C145_accepted_eq (a b : Accepted) : a.eq b = true ↔ a = b := by
  cases a; cases b; simp [Accepted.eq]

/-- **C145 is false for `!=` of accepted connections**: it is not the negation of `==`: two different valid connections are neither equal nor
unequal … -/
theorem C145_accepted_neither {a b : Accepted} (ha : a.server ≠ -1 ∧ a.client ≠ -1) (hb : b.server ≠ -1 ∧ b.client ≠ -1)
    (hne : a ≠ b) : a.eq b = false ∧ a.ne b = false := by
  constructor
  · rw [Bool.eq_false_iff, ne_eq, C145_accepted_eq]; exact hne
  · have hv : ∀ o : Accepted, o.server ≠ -1 ∧ o.client ≠ -1 → o.valid = true := by
      intro o; simp [Accepted.valid, Registrar.valid]
    simp [Accepted.ne, hv a ha, hv b hb, builtin_spec]

/-- … `!=` is right exactly if they are the same or just one is valid. -/
theorem C145_accepted_ne_iff (a b : Accepted) :
    a.ne b = !a.eq b ↔ a = b ∨ ¬ ((a.server ≠ -1 ∧ a.client ≠ -1) ↔ (b.server ≠ -1 ∧ b.client ≠ -1)) := by
  have hv : ∀ o : Accepted, o.valid = true ↔ (o.server ≠ -1 ∧ o.client ≠ -1) := by
    intro o; simp [Accepted.valid, Registrar.valid]
  rw [← hv a, ← hv b, ← C145_accepted_eq a b]
  by_cases e : a.eq b = true
  · have := (C145_accepted_eq a b).1 e
    subst this
    simp [e, Accepted.ne, builtin_spec]
  · simp only [Bool.not_eq_true] at e
    simp only [e, Accepted.ne, builtin_spec]
    cases a.valid <;> cases b.valid <;> simp

/-! ### C145: cases -/

/-- Optionals holding 5 and 6 are equal, and neither equals 5. -/
example : ∃ s : Life.Optional.St Nat, Reach (Life.Optional.step (fun _ => 0)) Life.Optional.safe Life.Optional.init s ∧
    (optionalEq s 0 1, optionalNe s 0 1, optionalEqInt s 0 5) = (.ok true, .ok false, .ok false) :=
  Reach.witness [.ctor 0 5, .ctor 1 6] _ _ (by decide +kernel)

/-- Shared pointers to two objects are equal. -/
example : ∃ s, Reach Shared.step Shared.pre Shared.init s ∧ (sharedEq s 0 1, s.vars) = (.ok true, [.ptr 0, .ptr 1]) :=
  Reach.witness [.create true, .create true] _ _ (by decide +kernel)

/-- Unique pointers to two objects are equal. -/
example : ∃ s, Reach Unique.step Unique.pre Unique.init s ∧ (uniqueEq s 0 1, Unique.owner s 0, Unique.owner s 1) = (.ok true, some 0, some 1) :=
  Reach.witness [.create 0 true, .create 1 true] _ _ (by decide +kernel)

/-- 127.0.0.1:80 and 10.0.0.1:443. -/
example : ipv4Eq (Ipv4.localhost 80) ⟨[10, 0, 0, 1], 443⟩ = true ∧ ipv4Ne (Ipv4.localhost 80) ⟨[10, 0, 0, 1], 443⟩ = false :=
  C145_ipv4_violated (by decide) (by decide)

/-- Two clients of one server. -/
example : Accepted.eq ⟨3, 7⟩ ⟨3, 8⟩ = false ∧ Accepted.ne ⟨3, 7⟩ ⟨3, 8⟩ = false :=
  C145_accepted_neither (by decide) (by decide) (by decide)

namespace Flame
open Own Own.Truth Conc
private abbrev twoUnique : List Unique.Op := [.create 0 true, .create 1 true, .createEmpty 2]
private theorem optTwo : Reach (Life.Optional.step (fun _ => 0)) Life.Optional.safe (Life.Optional.init : Life.Optional.St Nat)
    (visit (Life.Optional.step (fun _ => 0)) Life.Optional.safe Life.Optional.init [.ctor 0 5, .ctor 1 6]) := .visit _ (by decide +kernel)
example := C144_unique_exact (.visit twoUnique (by decide +kernel)) (i := 2) (by decide +kernel)
example := C144_unique_guards (.visit twoUnique (by decide +kernel)) (i := 2)
example := C144_optional_exact optTwo (i := 0) (o := some 5) (by decide +kernel)
example := C145_optional_exact optTwo (i := 0) (j := 1) (x := some 5) (y := some 6) (by decide +kernel) (by decide +kernel)
example := C145_optional_right_iff optTwo (i := 0) (j := 1) (x := some 5) (y := some 6) (by decide +kernel) (by decide +kernel)
example := C145_optional_number optTwo (i := 0) (o := some 5) (by decide +kernel) 1
example := C145_unique_violated (.visit twoUnique (by decide +kernel)) (i := 0) (j := 1) (a := 0) (b := 1) (by decide) (by decide +kernel) (by decide +kernel)
example := C145_unique_right_iff (.visit twoUnique (by decide +kernel)) (i := 0) (j := 2) (p := some 0) (q := none) (by decide) (by decide +kernel)
  (by decide +kernel)
end Flame

end Flame
