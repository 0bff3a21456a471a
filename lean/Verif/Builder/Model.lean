import Verif.Basic

/-!
# `Substep` — include/FlameIDE/Templates/Builder.hpp

A substep consists of a result and an error (Builder.hpp 57-58).  The derived class supplies `doImpl`, which reads and
writes both.  `Steps` and `Builder` (Builder.hpp 71-94) have no members of their own.

Simplifications: the error type is a scalar with decidable equality; `doImpl` is an arbitrary function of the two members
that writes an error (a value or none).  The constructor with arguments (Builder.hpp 104-115) calls a member function of
the derived class before its construction has begun, which is undefined whatever `initImpl` does.
-/

namespace Flame.Builder

/-- Builder.hpp 57-58; `none`: never written. -/
structure Substep (ρ ε : Type) where
  result : Option ρ
  error : Option ε

/-- How a step is declared: `Step s;`, `Step s{};`, `Step s(arg, ...)`. -/
inductive Decl where
  | plain
  | braces
  | args

/-- Builder.hpp 28 (defaulted, no member initialisers; braces zero-initialise first) and 104-115.  `zr`, `ze`: zero values. -/
def make {ρ ε : Type} (zr : ρ) (ze : ε) : Decl → Res (Substep ρ ε)
  | .plain => .ok ⟨none, none⟩
  | .braces => .ok ⟨some zr, some ze⟩
  | .args => .ub

/-- Builder.hpp 117-127: `operator()`. -/
def run {ρ ε : Type} (doImpl : Substep ρ ε → Substep ρ ε) (s : Substep ρ ε) : Substep ρ ε := doImpl s

/-- Builder.hpp 129-139: `operator bool`; `success` is the template argument SUCCESS_VALUE. -/
def test {ρ ε : Type} [DecidableEq ε] (success : ε) (s : Substep ρ ε) : Res Bool :=
  match s.error with
  | some e => .ok (decide (success ≠ e))
  | none => .ub

/-- Builder.hpp 141-163: `getResult` and reading what it refers to. -/
def getResult {ρ ε : Type} (s : Substep ρ ε) : Res ρ :=
  match s.result with
  | some r => .ok r
  | none => .ub

end Flame.Builder
