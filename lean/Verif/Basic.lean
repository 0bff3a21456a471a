/-!
# Outcomes of C++ code

`Res α` is the outcome of running a piece of the modelled C++ code:

* `ok a`   – it returned normally with `a`;
* `ub`     – it performed an operation whose behaviour is undefined (out-of-bounds access, null or dangling
             dereference, use of an object that does not exist, double destruction, missing `return`);
* `loop`   – the fuel given to the model ran out.  Non-termination of the code is stated as
             "for every amount of fuel the outcome is `loop`".
-/

namespace Flame

/-- Outcome of modelled code. -/
inductive Res (α : Type u) where
  | ok (a : α)
  | ub
  | loop
  deriving Repr, DecidableEq

namespace Res

/-- Sequencing: `ub` and `loop` are absorbing. -/
def bind {α : Type u} {β : Type v} : Res α → (α → Res β) → Res β
  | ok a, f => f a
  | ub, _ => ub
  | loop, _ => loop

instance : Monad Res where
  pure := Res.ok
  bind := Res.bind

@[simp] theorem pure_eq {α : Type u} (a : α) : (pure a : Res α) = ok a := rfl
@[simp] theorem ok_bind {α β : Type u} (a : α) (f : α → Res β) : (ok a >>= f) = f a := rfl
@[simp] theorem ub_bind {α β : Type u} (f : α → Res β) : ((ub : Res α) >>= f) = ub := rfl
@[simp] theorem loop_bind {α β : Type u} (f : α → Res β) : ((loop : Res α) >>= f) = loop := rfl

theorem bind_eq_ok {α β : Type u} {x : Res α} {f : α → Res β} {b : β} :
    (x >>= f) = ok b ↔ ∃ a, x = ok a ∧ f a = ok b := by
  cases x <;> simp

theorem bind_assoc {α β γ : Type u} (x : Res α) (f : α → Res β) (g : β → Res γ) :
    ((x >>= f) >>= g) = (x >>= fun a => f a >>= g) := by
  cases x <;> simp

/-- Turn a failed precondition into undefined behaviour. -/
def require (p : Prop) [Decidable p] : Res Unit := if p then ok () else ub

@[simp] theorem require_true {p : Prop} [Decidable p] (h : p) : require p = ok () := by simp [require, h]
@[simp] theorem require_false {p : Prop} [Decidable p] (h : ¬ p) : require p = ub := by simp [require, h]

end Res

/-- Induction on a list from its end. -/
theorem snocInduction {α : Type u} {P : List α → Prop} (nil : P [])
    (snoc : ∀ l x, P l → P (l ++ [x])) (l : List α) : P l := by
  have h : ∀ r : List α, P r.reverse := by
    intro r
    induction r with
    | nil => simpa using nil
    | cons x r ih => simpa using snoc _ x ih
  simpa using h l.reverse

/-- Run a list of operations, stopping at the first `ub`/`loop`. -/
def runOps {σ : Type u} {ω : Type v} (step : σ → ω → Res σ) : σ → List ω → Res σ
  | s, [] => .ok s
  | s, o :: os => match step s o with
    | .ok s' => runOps step s' os
    | .ub => .ub
    | .loop => .loop

@[simp] theorem runOps_nil {σ : Type u} {ω : Type v} (step : σ → ω → Res σ) (s : σ) :
    runOps step s [] = .ok s := rfl

theorem runOps_cons_ok {σ : Type u} {ω : Type v} {step : σ → ω → Res σ} {s s' : σ} {o : ω} {os : List ω}
    (h : step s o = .ok s') : runOps step s (o :: os) = runOps step s' os := by
  simp [runOps, h]

theorem runOps_append {σ : Type u} {ω : Type v} {step : σ → ω → Res σ} {s s' : σ} {os os' : List ω}
    (h : runOps step s os = .ok s') : runOps step s (os ++ os') = runOps step s' os' := by
  induction os generalizing s with
  | nil => simp [runOps] at h; subst h; rfl
  | cons o os ih =>
    simp only [runOps, List.cons_append] at h ⊢
    cases hs : step s o with
    | ok a => simp only [hs] at h ⊢; exact ih h
    | ub => simp [hs] at h
    | loop => simp [hs] at h

end Flame
