import Verif.Own.Spec

/-!
# `SharedPointer` (include/FlameIDE/Templates/Pointers.hpp 133-225, 293-460)

A program state: all `SharedPointer` variables declared so far (by position), the 64-bit reference counter of
every object (`pointer_utils::Counter<SizeType>`, kept beside the object in `pointer_utils::Members`), the number
of objects constructed so far and the event log.  Reading or writing the counter of a destroyed object is
undefined, as `Members` is destroyed and freed as a whole.

Not modelled: the stored allocator (stateless), concurrent use (the counter is a plain integer).  Overload
resolution: copying a *non-const* lvalue selects the variadic constructor (196-197, see `Own.Named`); this model's copy
constructor is the one taking `const Me &` (330-336).
-/

namespace Flame.Own.Shared

/-- A `SharedPointer` variable. -/
inductive Slot where
  /-- destroyed variable -/
  | gone
  /-- default constructed: `SharedPointer() noexcept = default` (190) leaves `members` (224) indeterminate -/
  | indet
  | null
  | ptr (r : Nat)
  deriving DecidableEq, Repr

structure St where
  vars : List Slot
  /-- reference counter of each object, modulo 2^64 -/
  cnt : Nat → Nat
  next : Nat
  log : List Ev

def init : St := ⟨[], fun _ => 0, 0, []⟩

/-- `Types::size_t` counter, 64 bit. -/
@[irreducible] def M : Nat := 2 ^ 64

inductive Op where
  /-- `SharedPointer()` — line 190 -/
  | defaultCtor
  /-- `SharedPointer(args...)`; the flag says whether the allocation succeeds -/
  | create (alloc : Bool)
  | copyCtor (j : Nat)
  | moveCtor (j : Nat)
  | copyAssign (i j : Nat)
  | moveAssign (i j : Nat)
  | clean (i : Nat)
  | drop (i : Nat)
  /-- `*p`, `p->` -/
  | deref (i : Nat)
  deriving DecidableEq, Repr

/-- 427-435 `clean`: `if (members && !--(members->counter)) { allocator.destroy(members); members = nullptr; }`.
A pointer that is not the last one keeps its `members`. -/
def cleanVar (s : St) (i : Nat) : Res St :=
  match s.vars[i]? with
  | some .null => .ok s
  | some (.ptr r) =>
    if Live r s.log then
      let c := (s.cnt r + (M - 1)) % M
      if c = 0 then
        .ok { s with vars := s.vars.set i .null, cnt := upd s.cnt r c, log := .closed r :: s.log }
      else .ok { s with cnt := upd s.cnt r c }
    else .ub
  | _ => .ub

/-- `++(members->counter)` through the pointer value `p` (335, 379): null or dangling is undefined. -/
def incr (s : St) (p : Slot) : Res St :=
  match p with
  | .ptr r => if Live r s.log then .ok { s with cnt := upd s.cnt r ((s.cnt r + 1) % M) } else .ub
  | _ => .ub

def step (s : St) : Op → Res St
  -- 190
  | .defaultCtor => .ok { s with vars := s.vars ++ [.indet] }
  -- 358-363; `Counter()` starts at 0 (296-298)
  | .create alloc =>
    if alloc then
      .ok { vars := s.vars ++ [.ptr s.next], cnt := upd s.cnt s.next 0, next := s.next + 1,
            log := .made s.next :: s.log }
    else .ok { s with vars := s.vars ++ [.null] }
  -- 330-336
  | .copyCtor j => match s.vars[j]? with
    | some p => match incr s p with
      | .ok s' => .ok { s' with vars := s'.vars ++ [p] }
      | .ub => .ub
      | .loop => .loop
    | none => .ub
  -- 338-344
  | .moveCtor j => match s.vars[j]? with
    | some .null => .ok { s with vars := s.vars ++ [.null] }
    | some (.ptr r) => .ok { s with vars := s.vars.set j .null ++ [.ptr r] }
    | _ => .ub
  -- 371-382
  | .copyAssign i j => match cleanVar s i with
    | .ok s₁ => match s₁.vars[j]? with
      | some p => match incr s₁ p with
        | .ok s₂ => .ok { s₂ with vars := s₂.vars.set i p }
        | .ub => .ub
        | .loop => .loop
      | none => .ub
    | .ub => .ub
    | .loop => .loop
  -- 384-395
  | .moveAssign i j => match cleanVar s i with
    | .ok s₁ => match s₁.vars[j]? with
      | some .null => .ok { s₁ with vars := (s₁.vars.set i .null).set j .null }
      | some (.ptr r) => .ok { s₁ with vars := (s₁.vars.set i (.ptr r)).set j .null }
      | _ => .ub
    | .ub => .ub
    | .loop => .loop
  -- 427-435
  | .clean i => cleanVar s i
  -- 365-369
  | .drop i => match cleanVar s i with
    | .ok s₁ => .ok { s₁ with vars := s₁.vars.set i .gone }
    | .ub => .ub
    | .loop => .loop
  -- 397-419
  | .deref i => match s.vars[i]? with
    | some (.ptr r) => if Live r s.log then .ok { s with log := .used r :: s.log } else .ub
    | _ => .ub

/-- Number of live variables that point at object `r`. -/
def owners (s : St) (r : Nat) : Nat := s.vars.count (.ptr r)

/-- The variables in `v` exist (and are not destroyed). -/
def Has (s : St) (v : Nat) : Prop := s.vars[v]?.getD .gone ≠ .gone

instance (s : St) (v : Nat) : Decidable (Has s v) := inferInstanceAs (Decidable (_ ≠ _))

theorem Has.get {s : St} {v : Nat} (h : Has s v) : ∃ p, s.vars[v]? = some p ∧ p ≠ .gone := by
  unfold Has at h
  cases e : s.vars[v]? with
  | none => simp [e] at h
  | some p => simp [e] at h; exact ⟨p, rfl, h⟩

/-- What the caller must ensure: variables are used only between construction and destruction, a pointer that is
copied or dereferenced is not null.  (Fewer than 2^64 variables are ever declared.)  Default construction,
explicit `clean()` and assignment of a variable to itself are treated by separate theorems. -/
def pre (s : St) : Op → Prop
  | .create _ => s.vars.length + 1 < M
  | .copyCtor j => Has s j ∧ s.vars[j]? ≠ some .null ∧ s.vars.length + 1 < M
  | .moveCtor j => Has s j ∧ s.vars.length + 1 < M
  | .copyAssign i j => Has s i ∧ Has s j ∧ s.vars[j]? ≠ some .null ∧ i ≠ j
  | .moveAssign i j => Has s i ∧ Has s j ∧ i ≠ j
  | .drop i => Has s i
  | .deref i => Has s i ∧ s.vars[i]? ≠ some .null
  | .defaultCtor => False
  | .clean _ => False

instance (s : St) (o : Op) : Decidable (pre s o) := by
  cases o <;> unfold pre <;> infer_instance

end Flame.Own.Shared
