import Verif.Crypto.Args

/-! # C92: initialisation arguments -/

namespace Flame
open Pkcs11.Args
open Flame.Own (Reach)

namespace Pkcs11.Args

/-- What `C_Initialize` accepts (PKCS#11, C_Initialize): all four callbacks or none of them. -/
def Acceptable (a : Args) : Prop :=
  (a.createMutex.isSome ∧ a.destroyMutex.isSome ∧ a.lockMutex.isSome ∧ a.unlockMutex.isSome) ∨
  (a.createMutex = none ∧ a.destroyMutex = none ∧ a.lockMutex = none ∧ a.unlockMutex = none)

/-- The same for the callbacks an application hands in. -/
def Callbacks.AllOrNone (c : Callbacks) : Prop :=
  (c.create.isSome ∧ c.destroy.isSome ∧ c.lock.isSome ∧ c.unlock.isSome) ∨
  (c.create = .none ∧ c.destroy = .none ∧ c.lock = .none ∧ c.unlock = .none)

/-- The application hands in all callbacks or none. -/
def careful (_ : St) : Op → Prop
  | .fromCallbacks _ c _ _ => c.AllOrNone
  | .setCallbacks _ c => c.AllOrNone
  | _ => True

theorem acceptable_cleared (f : Nat) (r : Option Nat) : Acceptable ⟨none, none, none, none, f, r⟩ := .inr ⟨rfl, rfl, rfl, rfl⟩

theorem put_acceptable {f : Nat → Option Args} (h : ∀ i a, f i = some a → Acceptable a) {i : Nat} {b : Option Args}
    (hb : ∀ a, b = some a → Acceptable a) : ∀ k a, put f i b k = some a → Acceptable a := by
  intro k a hk
  unfold put at hk
  split at hk
  · exact hb a hk
  · exact h k a hk

end Pkcs11.Args

/-- **C92, defaults.** Arguments constructed without parameters hold the library's own four callbacks, four different functions each in its place, ask
for locking and have no reserved value. -/
theorem C92_default {s s' : Pkcs11.Args.St} (i : Nat) (h : step s (.default i) = .ok s') :
    ∃ c d l u, [c, d, l, u].Nodup ∧ s'.vars i = some ⟨some c, some d, some l, some u, 2, none⟩ ∧
      (c, d, l, u) = (ownCreate, ownDestroy, ownLock, ownUnlock) := by
  simp only [step] at h
  split at h <;> first | (cases h; done) | (injection h with h; subst h)
  exact ⟨_, _, _, _, by decide, by simp [put, Pkcs11.Args.default]; decide, rfl⟩

/-- **C92, for the module.** Over every history in which the application hands in all callbacks or none, every argument object — copied, moved
into, moved from or assigned, by whatever route — is one `C_Initialize` accepts. -/
theorem C92_acceptable {s : Pkcs11.Args.St} (h : Reach step careful init s) (i : Nat) (a : Args) (hi : s.vars i = some a) : Acceptable a := by
  refine Reach.inv (P := fun s : Pkcs11.Args.St => ∀ i a, s.vars i = some a → Acceptable a) ?_ ?_ h i a hi
  · intro i a h; cases h
  intro s o s' hs hpre hstep
  cases o <;> simp only [step] at hstep <;> split at hstep <;> first | (cases hstep; done) | (injection hstep with hstep; subst hstep)
  · exact put_acceptable hs (by rintro _ ⟨⟩; exact .inl ⟨rfl, rfl, rfl, rfl⟩)
  · exact put_acceptable hs (by rintro _ ⟨⟩; exact hpre)
  · rename_i a _ ha
    exact put_acceptable hs (by rintro _ ⟨⟩; exact hs _ _ ha)
  · rename_i a _ ha
    exact put_acceptable (put_acceptable hs (by rintro _ ⟨⟩; exact acceptable_cleared ..)) (by rintro _ ⟨⟩; exact hs _ _ ha)
  · rename_i t a ht ha
    exact put_acceptable hs (by rintro _ ⟨⟩; exact hs _ _ ha)
  · rename_i t a ht ha
    refine put_acceptable (put_acceptable hs (by rintro _ ⟨⟩; exact hs _ _ ha)) ?_
    rintro b hb
    split at hb <;> cases hb <;> exact acceptable_cleared ..
  · exact put_acceptable hs (by rintro _ ⟨⟩; exact hpre)
  · exact put_acceptable hs (by rintro _ ⟨⟩)

/-- **C92, values.** Copying and assigning give the target exactly the source's callbacks, flags and reserved pointer and leave every other object,
the source included, alone; moving gives the target exactly what the source had and leaves every third object alone — for every pair of
different objects. -/
theorem C92_values_partial (s : Pkcs11.Args.St) (i j : Nat) (hij : i ≠ j) (a : Args) (hj : s.vars j = some a) :
    (s.vars i = none → ∃ s', step s (.copyCtor i j) = .ok s' ∧ s'.vars i = some a ∧ ∀ k, k ≠ i → s'.vars k = s.vars k) ∧
    (s.vars i = none → ∃ s', step s (.moveCtor i j) = .ok s' ∧ s'.vars i = some a ∧ ∀ k, k ≠ i → k ≠ j → s'.vars k = s.vars k) ∧
    (∀ t, s.vars i = some t → ∃ s', step s (.assign i j) = .ok s' ∧ s'.vars i = some a ∧ ∀ k, k ≠ i → s'.vars k = s.vars k) ∧
    (∀ t, s.vars i = some t → ∃ s', step s (.moveAssign i j) = .ok s' ∧ s'.vars i = some a ∧
      ∀ k, k ≠ i → k ≠ j → s'.vars k = s.vars k) := by
  refine ⟨?_, ?_, ?_, ?_⟩
  · intro hi
    refine ⟨⟨put s.vars i (some (Pkcs11.Args.copyCtor a))⟩, by simp [step, hi, hj], by simp [put, Pkcs11.Args.copyCtor], ?_⟩
    intro k hk; simp [put, hk]
  · intro hi
    refine ⟨⟨put (put s.vars j (some (Pkcs11.Args.moveCtor a).2)) i (some (Pkcs11.Args.moveCtor a).1)⟩, by simp [step, hi, hj], by simp [put, Pkcs11.Args.moveCtor, Pkcs11.Args.copyCtor], ?_⟩
    intro k hk hk'; simp [put, hk, hk']
  · intro t hi
    refine ⟨⟨put s.vars i (some (t.assign a))⟩, by simp [step, hi, hj], by simp [put, Args.assign, Args.setCallbacks], ?_⟩
    intro k hk; simp [put, hk]
  · intro t hi
    refine ⟨⟨put (put s.vars i (some (t.assign a))) j (some (if i = j then (t.assign a).cleared else a.cleared))⟩, by simp [step, hi, hj], by simp [put, Args.assign, Args.setCallbacks, hij], ?_⟩
    intro k hk hk'; simp [put, hk, hk']

/-- Assigning an object to itself by copy changes nothing. -/
theorem C92_self_assign (s : Pkcs11.Args.St) (i : Nat) (a : Args) (hi : s.vars i = some a) :
    ∃ s', step s (.assign i i) = .ok s' ∧ ∀ k, s'.vars k = s.vars k := by
  refine ⟨⟨put s.vars i (some (a.assign a))⟩, by simp [step, hi], ?_⟩
  intro k
  by_cases hk : k = i
  · subst hk; simp [put, Args.assign, Args.setCallbacks, hi]
  · simp [put, hk]

/-- **C92 fails.** Moving an object onto itself loses everything but the flags. -/
theorem C92_self_move_violated (s : Pkcs11.Args.St) (i : Nat) (a : Args) (hi : s.vars i = some a) :
    ∃ s', step s (.moveAssign i i) = .ok s' ∧ s'.vars i = some ⟨none, none, none, none, a.flags, none⟩ ∧
      (s'.vars i = some a ↔ a.createMutex = none ∧ a.destroyMutex = none ∧ a.lockMutex = none ∧ a.unlockMutex = none ∧ a.reserved = none) := by
  refine ⟨⟨put (put s.vars i (some (a.assign a))) i (some (a.assign a).cleared)⟩, by simp [step, hi], by simp [put, Args.assign, Args.setCallbacks, Args.cleared, Callbacks.none], ?_⟩
  cases a
  simp [put, Args.assign, Args.setCallbacks, Args.cleared, Callbacks.none]
  grind

/-- **C92 fails.** The two ways of moving leave different arguments behind: after move construction the source asks for the system's locking,
after move assignment it keeps its own flags, so that a source without the flag asks for single-threaded use. -/
theorem C92_moved_from (s s1 s2 : Pkcs11.Args.St) (i j k : Nat) (hij : i ≠ j) (hkj : k ≠ j) (a t : Args) (hi : s.vars i = none)
    (hj : s.vars j = some a) (hk : s.vars k = some t) (h1 : step s (.moveCtor i j) = .ok s1) (h2 : step s (.moveAssign k j) = .ok s2) :
    s1.vars j = some ⟨none, none, none, none, OS_LOCKING_OK, none⟩ ∧ s2.vars j = some ⟨none, none, none, none, a.flags, none⟩ := by
  simp only [step, hi, hj, hk] at h1 h2
  injection h1 with h1; injection h2 with h2
  subst h1; subst h2
  simp [put, Pkcs11.Args.moveCtor, Args.setCallbacks, Args.cleared, Callbacks.none, Ne.symm hij, hkj]

instance Pkcs11.Args.allOrNoneDec (c : Callbacks) : Decidable c.AllOrNone := by unfold Callbacks.AllOrNone; infer_instance
instance Pkcs11.Args.carefulDec (s : Pkcs11.Args.St) (o : Op) : Decidable (careful s o) := by
  cases o <;> simp only [careful] <;> infer_instance

example : ∃ s, Reach step careful init s ∧ [s.vars 0, s.vars 1, s.vars 2] =
    [some ⟨none, none, none, none, 2, none⟩, some ⟨some 7, some 8, some 9, some 10, 1, some 3⟩, none] :=
  Reach.witness (step := step) (pre := careful) (s₀ := init) [.fromCallbacks 0 ⟨some 7, some 8, some 9, some 10⟩ 1 (some 3), .default 1, .copyCtor 2 0, .moveAssign 1 2, .moveCtor 3 0, .destroy 2]
    (fun s => [s.vars 0, s.vars 1, s.vars 2]) _ (by decide)

/-! The theorems at concrete states. -/

namespace Pkcs11.Args

/-- One object with callbacks of the program, one made without arguments. -/
def exState : St := Own.visit step careful init [.fromCallbacks 0 ⟨some 7, some 8, some 9, some 10⟩ 1 (some 3), .default 1]

theorem exState_reach : Reach step careful init exState := .visit _ (by decide)

end Pkcs11.Args

example := C92_default (s := exState) 5 rfl
example := C92_acceptable exState_reach 0 _ rfl
example := C92_values_partial exState 1 0 (by decide) _ rfl
example := C92_self_assign exState 0 _ rfl
example := C92_self_move_violated exState 0 _ rfl
example := C92_moved_from exState _ _ 5 0 1 (by decide) (by decide) _ _ rfl rfl rfl rfl rfl

end Flame
