import Verif.Crypto.Mechanism

/-!
# C135: mechanisms answer through the callbacks of their class
-/

namespace Flame.Mech
open Flame.Own (upd upd_self upd_ne Reach)

/-- C135: a mechanism that overrides nothing refuses everything: it is vendor-defined, has no key sizes and no flags, every
operation fails with CKR_MECHANISM_INVALID and every parameter with CKR_ARGUMENTS_BAD. -/
theorem C135_default_exact (classes : Nat → Class) (a : Nat) :
    ask classes default a .getType = .ok (.type (2 ^ 31)) ∧ ask classes default a .getInfo = .ok (.info 0 0 0) ∧
    (∀ q, q = .getEncryptor ∨ q = .getDecryptor ∨ q = .getSigner ∨ q = .getVerifier →
      ask classes default a q = .ok (.code 112)) ∧
    (∀ p, ask classes default a (.processParameter p) = .ok (.code 7)) := by
  refine ⟨rfl, rfl, ?_, fun _ => rfl⟩
  rintro q (h | h | h | h) <;> subst h <;> rfl

/-- C135: an object of a derived class answers each query by that query's callback and no other, called for the object
itself; queries the class does not override keep the default answer. -/
theorem C135_dispatch_exact (classes : Nat → Class) (s s' : St) (a c : Nat) (own : Query → Bool)
    (hown : ∀ p p', own (.processParameter p) = own (.processParameter p'))
    (h : step s (.derived a c own) = .ok s') : ∃ o, s' a = some o ∧ ∀ q,
      ask classes o a q = .ok (if own q then classes c a q else dfltAnswer q) := by
  cases h
  refine ⟨_, upd_self _ _ _, ?_⟩
  intro q
  cases q with
  | processParameter p =>
    have := hown 0 p
    cases ho : own (.processParameter p) <;> simp [ask, construct, pick, this, ho, callCb]
  | getType => cases ho : own .getType <;> simp [ask, construct, pick, ho, callCb]
  | getInfo => cases ho : own .getInfo <;> simp [ask, construct, pick, ho, callCb]
  | getEncryptor => cases ho : own .getEncryptor <;> simp [ask, construct, pick, ho, callCb]
  | getDecryptor => cases ho : own .getDecryptor <;> simp [ask, construct, pick, ho, callCb]
  | getSigner => cases ho : own .getSigner <;> simp [ask, construct, pick, ho, callCb]
  | getVerifier => cases ho : own .getVerifier <;> simp [ask, construct, pick, ho, callCb]

example : ∃ s', step (fun _ => none) (.derived 4 1 (fun q => q = .getType)) = .ok s' ∧ ∃ o, s' 4 = some o ∧
    ask (fun _ _ _ => .type 1) o 4 .getType = .ok (.type 1) ∧ ask (fun _ _ _ => .type 1) o 4 .getSigner = .ok (.code 112) :=
  ⟨_, rfl, _, rfl, by decide⟩

/-- Every callback in the table belongs to the object's class. -/
def OwnCb (o : Obj) (cb : Cb) : Prop := ∀ c, cb = .user c → o.cls = some c

structure OwnTable (o : Obj) : Prop where
  t : OwnCb o o.getTypeCb
  i : OwnCb o o.getInfoCb
  e : OwnCb o o.getEncryptorCb
  d : OwnCb o o.getDecryptorCb
  s : OwnCb o o.getSignerCb
  v : OwnCb o o.getVerifierCb
  p : OwnCb o o.processParameterCb

theorem OwnTable.copy {u v : Obj} (h : OwnTable v) (e : u.cls = v.cls) : OwnTable (copyBase u v) := by
  have key : ∀ cb, OwnCb v cb → OwnCb (copyBase u v) cb := fun cb hc c hcb => e.trans (hc c hcb)
  exact ⟨key _ h.t, key _ h.i, key _ h.e, key _ h.d, key _ h.s, key _ h.v, key _ h.p⟩

theorem ownCb_pick (o : Obj) (c : Nat) (own : Query → Bool) (q : Query) (h : o.cls = some c) : OwnCb o (pick c own q) := by
  intro c' hc
  unfold pick at hc
  split at hc
  · cases hc; exact h
  · cases hc

theorem own_default : OwnTable default := by
  constructor <;> (intro c hc; cases hc)

theorem OwnTable.answers {o : Obj} (h : OwnTable o) (classes : Nat → Class) (a : Nat) (q : Query) :
    ∃ x, ask classes o a q = .ok x := by
  have key : ∀ cb, OwnCb o cb → ∃ x, callCb classes o a q cb = .ok x := by
    intro cb hc
    cases cb with
    | dflt => exact ⟨_, rfl⟩
    | user c => exact ⟨classes c a q, by simp [callCb, hc c rfl]⟩
  cases q with
  | getType => exact key _ h.t
  | getInfo => exact key _ h.i
  | getEncryptor => exact key _ h.e
  | getDecryptor => exact key _ h.d
  | getSigner => exact key _ h.s
  | getVerifier => exact key _ h.v
  | processParameter _ => exact key _ h.p

theorem own_step {s s' : St} (h : ∀ a o, s a = some o → OwnTable o) {op : Op} (hp : kept s op)
    (he : step s op = .ok s') : ∀ a o, s' a = some o → OwnTable o := by
  have put : ∀ (a : Nat) (w : Option Obj), (∀ o, w = some o → OwnTable o) →
      ∀ b o, upd s a w b = some o → OwnTable o := by
    intro a w hw b o hb
    by_cases e : b = a
    · subst e; rw [upd_self] at hb; exact hw o hb
    · rw [upd_ne _ _ e] at hb; exact h b o hb
  cases op with
  | plain a =>
    cases he
    exact put a _ (by intro o ho; cases ho; exact own_default)
  | derived a c own =>
    cases he
    refine put a _ ?_
    intro o ho
    cases ho
    constructor <;> exact ownCb_pick _ c own _ rfl
  | copy a b =>
    cases hb : s b with
    | none => simp [step, hb] at he
    | some v =>
      simp [step, hb] at he
      subst he
      refine put a _ ?_
      intro o ho
      cases ho
      exact (h b v hb).copy (by simpa [default, construct] using (hp.2 v hb).symm)
  | assign a b =>
    cases ha : s a with
    | none => simp [step, ha] at he
    | some u =>
      cases hb : s b with
      | none => simp [step, ha, hb] at he
      | some v =>
        simp [step, ha, hb] at he
        subst he
        refine put a _ ?_
        intro o ho
        cases ho
        exact (h b v hb).copy (hp.2 u v ha hb)
  | drop a =>
    cases he
    exact put a _ (by intro o ho; cases ho)

/-- C135 (partial: objects of derived classes are not copied into plain mechanisms, and are assigned only within their
class): every query of every mechanism is answered. -/
theorem C135_answers_partial {s : St} (h : Reach step kept (fun _ => none) s) (classes : Nat → Class) {a : Nat} {o : Obj}
    (ho : s a = some o) (q : Query) : ∃ x, ask classes o a q = .ok x := by
  have : ∀ a o, s a = some o → OwnTable o := by
    clear ho
    induction h with
    | start => intro a o ha; cases ha
    | step _ hp he ih => exact own_step ih hp he
  exact (this a o ho).answers classes a q

example : ∃ s, Reach step kept (fun _ => none) s ∧ (s 4).isSome ∧ (s 5).isSome := by
  refine ⟨upd (upd (fun _ => none) 4 (some default)) 5 (some (copyBase default default)), ?_, by decide, by decide⟩
  refine .step (o := .copy 5 4) (.step (o := .plain 4) .start ⟨rfl, trivial⟩ rfl) ⟨⟨by decide, by decide⟩, ?_⟩ rfl
  intro v hv
  cases hv
  rfl

/-- C135 (violated): a copy made as a plain `Mechanism` keeps the callbacks of the derived class, and every query that class
overrides is then undefined. -/
theorem C135_slice_ub (classes : Nat → Class) (s : St) {a b c : Nat} (own : Query → Bool)
    (hown : ∀ p p', own (.processParameter p) = own (.processParameter p')) :
    ∃ s₁, step s (.derived b c own) = .ok s₁ ∧ ∃ s₂ o, step s₁ (.copy a b) = .ok s₂ ∧ s₂ a = some o ∧
      ∀ q, own q = true → ask classes o a q = .ub := by
  refine ⟨_, rfl, ?_⟩
  simp only [step, upd_self]
  refine ⟨_, _, rfl, upd_self _ _ _, ?_⟩
  intro q hq
  cases q with
  | processParameter p =>
    have := hown 0 p
    simp [ask, construct, copyBase, pick, this, hq, callCb, default]
  | _ => simp [ask, construct, copyBase, pick, hq, callCb, default]

/-- C135 (violated): so is every overridden query of an object of another class assigned from an object of the class. -/
theorem C135_assign_ub (classes : Nat → Class) (s : St) {a b c : Nat} {u : Obj} (own : Query → Bool) (hab : a ≠ b)
    (ha : s a = some u) (hu : u.cls ≠ some c)
    (hown : ∀ p p', own (.processParameter p) = own (.processParameter p')) :
    ∃ s₁, step s (.derived b c own) = .ok s₁ ∧ ∃ s₂ o, step s₁ (.assign a b) = .ok s₂ ∧ s₂ a = some o ∧
      ∀ q, own q = true → ask classes o a q = .ub := by
  refine ⟨_, rfl, ?_⟩
  simp only [step, upd_self, upd_ne _ _ hab, ha]
  refine ⟨_, _, rfl, upd_self _ _ _, ?_⟩
  intro q hq
  cases q with
  | processParameter p =>
    have := hown 0 p
    simp [ask, construct, copyBase, pick, this, hq, callCb, hu]
  | _ => simp [ask, construct, copyBase, pick, hq, callCb, hu]

example : ∃ s u, Reach step pre (fun _ => none) s ∧ s 4 = some u ∧ u.cls ≠ some 1 :=
  ⟨_, default, .step (o := .plain 4) .start rfl rfl, rfl, by decide⟩

namespace Flame
namespace Mech
example := C135_slice_ub (fun _ _ _ => .type 1) (fun _ => none) (a := 5) (b := 4) (c := 1) (fun q => match q with | .processParameter _ => true | _ => false)
  (fun _ _ => rfl)
end Mech
end Flame

end Flame.Mech
