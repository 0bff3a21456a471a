import Verif.Own.Unique

/-! # C29: `UniquePointer` destroys its object exactly once -/

namespace Flame.Own.Unique

structure Inv (s : St) : Prop where
  ledger : Ledger (owner s) s.log
  fresh : ∀ r, .made r ∈ s.log → r < s.next

/-- `clean` on a variable that owns `p`. -/
theorem cleanValue_ok {s : St} (h : Inv s) {i : Nat} {p : Option Nat} (hp : s.vars i = some p) :
    ∃ log, cleanValue p s.log = .ok log ∧ Ledger (upd (owner s) i none) log ∧
      (∀ r, .made r ∈ log → .made r ∈ s.log) := by
  cases p with
  | none =>
    refine ⟨s.log, rfl, h.ledger.congr ?_, fun _ h => h⟩
    intro k
    by_cases hk : k = i
    · subst hk; simp [owner, hp]
    · rw [upd_ne _ _ hk]
  | some r =>
    have ho : owner s i = some r := by simp [owner, hp]
    refine ⟨.closed r :: s.log, ?_, h.ledger.close ho, ?_⟩
    · simp [cleanValue, h.ledger.ownedLive i r ho]
    · intro q hq
      simpa using hq

theorem inv_init : Inv init :=
  ⟨Ledger.init.congr (by intro i; rfl), by simp [init]⟩

theorem step_ok {s : St} (h : Inv s) {o : Op} (hp : pre s o) : ∃ s', step s o = .ok s' ∧ Inv s' := by
  cases o with
  | create i alloc =>
    simp only [pre] at hp
    cases alloc with
    | true =>
      refine ⟨_, by simp [step, hp]; rfl, ?_, ?_⟩
      · have h1 : .made s.next ∉ s.log := fun hm => Nat.lt_irrefl _ (h.fresh _ hm)
        have h2 : .closed s.next ∉ s.log := fun hc => h1 (closed_made h.ledger.proper hc)
        refine (h.ledger.make (i := i) (by simp [owner, hp]) h1 h2).congr ?_
        intro k
        by_cases hk : k = i
        · subst hk; simp [owner]
        · simp [owner, upd_ne _ _ hk]
      · intro r hr
        rcases List.mem_cons.mp hr with h' | h'
        · injection h' with h'; subst h'; exact Nat.lt_succ_self _
        · exact Nat.lt_succ_of_lt (h.fresh r h')
    | false =>
      refine ⟨_, by simp [step, hp]; rfl, ?_, ?_⟩
      rotate_left
      · exact h.fresh
      refine h.ledger.congr ?_
      intro k
      by_cases hk : k = i
      · subst hk; simp [owner, hp]
      · simp [owner, upd_ne _ _ hk]
  | createEmpty i =>
    simp only [pre] at hp
    refine ⟨_, by simp [step, hp]; rfl, ?_, ?_⟩
    rotate_left
    · exact h.fresh
    refine h.ledger.congr ?_
    intro k
    by_cases hk : k = i
    · subst hk; simp [owner, hp]
    · simp [owner, upd_ne _ _ hk]
  | moveCtor i j =>
    obtain ⟨hi, hj⟩ := hp
    cases hpj : s.vars j with
    | none => exact absurd hpj hj
    | some p =>
      have hij : i ≠ j := by intro e; subst e; rw [hi] at hpj; cases hpj
      refine ⟨_, by simp [step, hi, hpj]; rfl, ?_, ?_⟩
      rotate_left
      · exact h.fresh
      refine (h.ledger.move (i := i) (j := j) (by simp [owner, hi]) hij).congr ?_
      intro k
      by_cases hkj : k = j
      · subst hkj; simp [owner]
      · by_cases hki : k = i
        · subst hki; simp [owner, upd_ne _ _ hkj, hpj]
        · simp [owner, upd_ne _ _ hkj, upd_ne _ _ hki]
  | moveAssign i j =>
    obtain ⟨hi, hj⟩ := hp
    cases hpi : s.vars i with
    | none => exact absurd hpi hi
    | some p =>
      cases hpj : s.vars j with
      | none => exact absurd hpj hj
      | some q =>
        obtain ⟨log, hc, hl, hm⟩ := cleanValue_ok h hpi
        by_cases hij : i = j
        · subst hij
          refine ⟨_, by simp [step, hpi, hc]; rfl, ?_, ?_⟩
          rotate_left
          · exact fun r hr => h.fresh r (hm r hr)
          refine hl.congr ?_
          intro k
          by_cases hk : k = i
          · subst hk; simp [owner]
          · simp [owner, upd_ne _ _ hk]
        · have hji : j ≠ i := fun e => hij e.symm
          refine ⟨_, by simp [step, hpi, hpj, hc, upd_ne _ _ hji]; rfl, ?_, ?_⟩
          rotate_left
          · exact fun r hr => h.fresh r (hm r hr)
          refine (hl.move (i := i) (j := j) (by simp) hij).congr ?_
          intro k
          by_cases hkj : k = j
          · subst hkj; simp [owner]
          · by_cases hki : k = i
            · subst hki; simp [owner, upd_ne _ _ hkj, upd_ne _ _ hji, hpj]
            · simp [owner, upd_ne _ _ hkj, upd_ne _ _ hki]
  | clean i =>
    simp only [pre] at hp
    cases hpi : s.vars i with
    | none => exact absurd hpi hp
    | some p =>
      obtain ⟨log, hc, hl, hm⟩ := cleanValue_ok h hpi
      refine ⟨_, by simp [step, hpi, hc]; rfl, ?_, ?_⟩
      rotate_left
      · exact fun r hr => h.fresh r (hm r hr)
      refine hl.congr ?_
      intro k
      by_cases hk : k = i
      · subst hk; simp [owner]
      · simp [owner, upd_ne _ _ hk]
  | drop i =>
    simp only [pre] at hp
    cases hpi : s.vars i with
    | none => exact absurd hpi hp
    | some p =>
      obtain ⟨log, hc, hl, hm⟩ := cleanValue_ok h hpi
      refine ⟨_, by simp [step, hpi, hc]; rfl, ?_, ?_⟩
      rotate_left
      · exact fun r hr => h.fresh r (hm r hr)
      refine hl.congr ?_
      intro k
      by_cases hk : k = i
      · subst hk; simp [owner]
      · simp [owner, upd_ne _ _ hk]
  | deref i =>
    obtain ⟨r, ho⟩ := Option.ne_none_iff_exists'.mp (show owner s i ≠ none from hp)
    have hr : s.vars i = some (some r) := by
      cases hv : s.vars i with
      | none => simp [owner, hv] at ho
      | some p => simp [owner, hv] at ho; rw [ho]
    refine ⟨_, by simp [step, hr, h.ledger.ownedLive i r ho]; rfl, ?_, ?_⟩
    · exact (h.ledger.use ho).congr (by intro k; rfl)
    · intro q hq
      exact h.fresh q (by simpa using hq)

theorem reach_inv {s : St} (h : Reach step pre init s) : Inv s :=
  h.inv inv_init (fun s o s' hi hp he => by
    obtain ⟨t, ht, hinv⟩ := step_ok hi hp
    rw [he] at ht
    injection ht with ht
    subst ht
    exact hinv)

end Flame.Own.Unique

namespace Flame
open Own Own.Unique

/-- **C29.** In every execution: no permitted operation is undefined, every use and every destruction hits an
object that exists, and each object that exists is owned by exactly one variable. -/
theorem C29_unique_owner {s : Unique.St} (h : Reach Unique.step Unique.pre Unique.init s) :
    Ledger (Unique.owner s) s.log ∧ ∀ o, Unique.pre s o → ∃ s', Unique.step s o = .ok s' :=
  ⟨(Unique.reach_inv h).ledger, fun _ hp => let ⟨s', hs, _⟩ := Unique.step_ok (Unique.reach_inv h) hp; ⟨s', hs⟩⟩

/-- **C29.** When all pointers are gone, every object was destroyed exactly once. -/
theorem C29_destroyed_once {s : Unique.St} (h : Reach Unique.step Unique.pre Unique.init s)
    (hgone : ∀ i, s.vars i = none) : ReleasedOnce s.log :=
  (Unique.reach_inv h).ledger.releasedOnce (by intro i; simp [Unique.owner, hgone i])

/-- **C29.** At no time was an object destroyed twice, or used or destroyed after its destruction. -/
theorem C29_never_after {s : Unique.St} (h : Reach Unique.step Unique.pre Unique.init s) :
    (∀ r, s.log.count (.closed r) ≤ 1) ∧
    (∀ r l₁ l₂, s.log = l₁ ++ .closed r :: l₂ → .used r ∉ l₁ ∧ .closed r ∉ l₁) := by
  have hp := (Unique.reach_inv h).ledger.proper
  refine ⟨hp.closed_le_one, ?_⟩
  intro r l₁ l₂ e
  rw [e] at hp
  exact hp.no_use_after

/-- **C29.** A move transfers the object: afterwards the target owns what the source owned, the source owns
nothing, and what the target held before is destroyed. -/
theorem C29_move_transfers {s s' : Unique.St} {i j : Nat} (h : Reach Unique.step Unique.pre Unique.init s)
    (hij : i ≠ j) (hs : Unique.step s (.moveAssign i j) = .ok s') :
    Unique.owner s' i = Unique.owner s j ∧ Unique.owner s' j = none ∧
    (∀ r, Unique.owner s i = some r → .closed r ∈ s'.log) ∧
    (∀ k, k ≠ i → k ≠ j → Unique.owner s' k = Unique.owner s k) := by
  have hji : j ≠ i := fun e => hij e.symm
  cases hpi : s.vars i with
  | none => simp [Unique.step, hpi] at hs
  | some p =>
    cases hpj : s.vars j with
    | none => simp [Unique.step, hpi, hpj] at hs
    | some q =>
      obtain ⟨log, hc, hl, hm⟩ := Unique.cleanValue_ok (Unique.reach_inv h) hpi
      simp [Unique.step, hpi, hpj, hc, upd_ne _ _ hji] at hs
      subst hs
      refine ⟨?_, ?_, ?_, ?_⟩
      · simp [Unique.owner, upd_ne _ _ hij, hpj]
      · simp [Unique.owner]
      · intro r hr
        simp only [Unique.owner, hpi, Option.join_some] at hr
        subst hr
        simp only [Unique.cleanValue] at hc
        split at hc
        · injection hc with hc; subst hc; simp
        · cases hc
      · intro k hki hkj
        simp [Unique.owner, upd_ne _ _ hkj, upd_ne _ _ hki]

/-- A run with a failed allocation, moves over a held object, a self-move and destruction. -/
def c29Run : List Unique.Op :=
  [.create 0 true, .create 1 true, .deref 0, .moveAssign 0 1, .deref 0, .moveCtor 2 0, .moveAssign 2 2,
   .createEmpty 3, .create 4 false, .moveAssign 3 4, .clean 3, .drop 0, .drop 1, .drop 2, .drop 3, .drop 4]

example : ∃ s, Reach Unique.step Unique.pre Unique.init s ∧
    (s.log, (List.range 6).map s.vars) =
      ([.closed 1, .used 1, .closed 0, .used 0, .made 1, .made 0], List.replicate 6 none) :=
  Reach.witness c29Run _ _ (by decide)

/-- `C29_move_transfers` applies: two live objects, one pointer assigned over the other. -/
example : ∃ s, Reach Unique.step Unique.pre Unique.init s ∧ (Unique.owner s 0, Unique.owner s 1) = (some 0, some 1) :=
  Reach.witness [.create 0 true, .create 1 true] _ _ (by decide)

namespace Flame
open Own Own.Unique
example := C29_unique_owner (.visit c29Run (by decide +kernel))
example := C29_destroyed_once (s := Unique.init) .start (fun _ => rfl)
example := C29_never_after (.visit c29Run (by decide +kernel))
example := C29_move_transfers (.visit ([.create 0 true, .create 1 true] : List Unique.Op) (by decide +kernel)) (i := 0) (j := 1) (by decide) rfl
end Flame

end Flame
