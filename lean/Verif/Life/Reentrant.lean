import Verif.Life.ExpectedComProps
import Verif.Life.ExpectedVarProps

/-!
# Handlers that use the object they are called for

`e.ifError([&](Error &&) { e = retry(); })`: the handler may do anything with the variables of the program, in particular give a new value to
the very object whose handler is running.  The handler is an arbitrary function on the state (`body`); it may also read its argument again at
the end (`again`), which is a reference to the value inside the object.
-/

namespace Flame.Life.Reentrant
open Flame.Own

variable {V : Type}

/-- Common/Expected.hpp 197-209 `ifResult`, 224-236 `ifError` (non-const): call the handler, then set the state of the object as it is now to
UNKNOWN.  If the handler has ended the life of the object the last step writes to an object that does not exist.  The flag says whether the
handler was called. -/
def common (s : ExpectedCom.St V) (i : Nat) (err : Bool) (body : ExpectedCom.St V → Res (ExpectedCom.St V)) (again : Bool) :
    Res (ExpectedCom.St V × Bool) :=
  match ExpectedCom.read s i with
  | .ok none => .ok (s, false)
  | .ok (some c) =>
    if c.err = err then match body { s with log := .used c.obj :: s.log } with
      | .ok s₁ =>
        if again = true ∧ ¬ Live c.obj s₁.log then .ub
        else match s₁.vars i with
          | some x => .ok ({ s₁ with vars := upd s₁.vars i (some { x with state := none }) }, true)
          | none => .ub
      | .ub => .ub
      | .loop => .loop
    else .ok (s, false)
  | .ub => .ub
  | .loop => .loop

/-- Templates/Expected.hpp 131-142 `ifResult`, 157-168 `ifError` (non-const): call the handler; nothing is touched afterwards. -/
def templates (s : Variant.St V) (i : Nat) (ty : Nat) (body : Variant.St V → Res (Variant.St V)) (again : Bool) :
    Res (Variant.St V × Bool) :=
  match s.vars i with
  | some x => match Variant.getType ExpectedVar.pack x ty with
    | some k => match Variant.readMember s i k with
      | .ok c => match body { s with log := .used c.obj :: s.log } with
        | .ok s₁ => if again = true ∧ ¬ Live c.obj s₁.log then .ub else .ok (s₁, true)
        | .ub => .ub
        | .loop => .loop
      | .ub => .ub
      | .loop => .loop
    | none => .ok (s, false)
  | none => .ub

end Flame.Life.Reentrant
