import Verif.Own.SharedProps
import Verif.Own.UniqueProps

/-!
# Copying a pointer object by name (include/FlameIDE/Templates/Pointers.hpp)

`SharedPointer<T> q(p)` and `auto q = p` with an ordinary (non-const) variable `p`: the variadic constructor
`SharedPointer(Args &&...)` (196-197) with `Args = SharedPointer &` matches exactly, the copy constructor (191) needs a
const qualification, so the variadic one is chosen and makes a *new* object from `p` (358-363, 157-161).  The same
happens with `UniquePointer`, whose copy constructor is deleted (248) but whose variadic constructor (245-246, 464-470)
is not.

For a class type `T` that cannot be made from a pointer object the program does not compile.  For an arithmetic `T`
it does: `p` converts to `bool` (`operator bool` 421-425, 535-539, not explicit), and the new object is 0 or 1.  This
file models that case.  `Val` gives the value of every object; objects are numbered as in `Own.Shared`
and `Own.Unique`.
-/

namespace Flame.Own

/-- The values of the objects. -/
abbrev Val := Nat → Int

/-- Conversion of `bool` to an arithmetic type. -/
def ofBool (b : Bool) : Int := if b then 1 else 0

namespace Shared

/-- `SharedPointer<T> q(p)`, `T` arithmetic, `p` the non-const variable `j`: 421-425 `operator bool` is
`&members->object`, undefined for a null or dangling `members` and otherwise not null; then 358-363. -/
def copyNamed (s : St) (val : Val) (j : Nat) (alloc : Bool) : Res (St × Val) :=
  match s.vars[j]? with
  | some (.ptr r) =>
    if Live r s.log then
      match step s (.create alloc) with
      | .ok s' => .ok (s', if alloc then upd val s.next (ofBool true) else val)
      | .ub => .ub
      | .loop => .loop
    else .ub
  | _ => .ub

/-- `SharedPointer<T> q(p)` with `p` a const variable: the copy constructor 330-336. -/
def copyConst (s : St) (val : Val) (j : Nat) : Res (St × Val) :=
  match step s (.copyCtor j) with
  | .ok s' => .ok (s', val)
  | .ub => .ub
  | .loop => .loop

/-- `*p = x`: 397-401. -/
def write (s : St) (val : Val) (i : Nat) (x : Int) : Res Val :=
  match s.vars[i]? with
  | some (.ptr r) => if Live r s.log then .ok (upd val r x) else .ub
  | _ => .ub

/-- The value read by `*p`: 397-407. -/
def read (s : St) (val : Val) (i : Nat) : Res Int :=
  match s.vars[i]? with
  | some (.ptr r) => if Live r s.log then .ok (val r) else .ub
  | _ => .ub

/-- Specification: variable `q` shares the object of variable `p`: whatever is written through one is read through the other. -/
def Shares (s : St) (val : Val) (p q : Nat) : Prop :=
  ∀ x val', write s val p x = .ok val' → read s val' q = .ok x

end Shared

namespace Unique

/-- `UniquePointer<T> q(p)`, `T` arithmetic, `p` the non-const variable `j`: 535-539 `operator bool` is the pointer itself;
then 464-470.  A const `p` selects the deleted copy constructor (248) and does not compile. -/
def copyNamed (s : St) (val : Val) (i j : Nat) (alloc : Bool) : Res (St × Val) :=
  match s.vars j with
  | none => .ub
  | some p =>
    match step s (.create i alloc) with
    | .ok s' => .ok (s', if alloc then upd val s.next (ofBool p.isSome) else val)
    | .ub => .ub
    | .loop => .loop

end Unique

/-! ## Theorems -/

end Flame.Own

namespace Flame
open Own

/-- C142: copying a const variable shares the object. -/
theorem C142_const_shares {s : Shared.St} {val : Val} {j r : Nat} (hj : s.vars[j]? = some (.ptr r)) (hl : Live r s.log) :
    ∃ s' val', Shared.copyConst s val j = .ok (s', val') ∧ Shared.Shares s' val' j s.vars.length ∧
      Shared.Shares s' val' s.vars.length j ∧ Shared.owners s' r = Shared.owners s r + 1 := by
  have hjl : j < s.vars.length := by
    rcases Nat.lt_or_ge j s.vars.length with h | h
    · exact h
    · rw [List.getElem?_eq_none h] at hj; cases hj
  refine ⟨{ s with vars := s.vars ++ [.ptr r], cnt := upd s.cnt r ((s.cnt r + 1) % Shared.M) }, val,
    by simp only [Shared.copyConst, Shared.step, hj, Shared.incr, if_pos hl], ?_, ?_, ?_⟩
  · intro x val' h
    simp only [Shared.write, List.getElem?_append_left hjl, hj, if_pos hl, Res.ok.injEq] at h
    subst h
    simp [Shared.read, hl]
  · intro x val' h
    simp only [Shared.write, List.getElem?_concat_length, if_pos hl, Res.ok.injEq] at h
    subst h
    simp [Shared.read, List.getElem?_append_left hjl, hj, hl]
  · simp [Shared.owners]

/-- C142 fails for an ordinary variable: in every execution, copying it makes a new object of value 1; the two variables do
not share anything, and the owners of the original object are as before. -/
theorem C142_named_violated {s : Shared.St} (h : Reach Shared.step Shared.pre Shared.init s) (val : Val) {j r : Nat}
    (hj : s.vars[j]? = some (.ptr r)) (hl : Live r s.log) :
    ∃ s' val', Shared.copyNamed s val j true = .ok (s', val') ∧
      Shared.read s' val' j = .ok (val r) ∧ Shared.read s' val' s.vars.length = .ok 1 ∧
      ¬ Shared.Shares s' val' j s.vars.length ∧ ¬ Shared.Shares s' val' s.vars.length j ∧
      Shared.owners s' r = Shared.owners s r := by
  have hjl : j < s.vars.length := by
    rcases Nat.lt_or_ge j s.vars.length with h | h
    · exact h
    · rw [List.getElem?_eq_none h] at hj; cases hj
  have hlt := (Shared.reach_inv h).fresh r hl.1
  have hne : r ≠ s.next := by omega
  have hl' : Live r (.made s.next :: s.log) := ⟨List.mem_cons_of_mem _ hl.1, by simpa using hl.2⟩
  have hcl : .closed s.next ∉ s.log := by
    intro hc
    have := (Shared.reach_inv h).dead s.next hc
    have := (Shared.reach_inv h).fresh s.next ((Shared.reach_inv h).ptrMade _ (by omega))
    omega
  have hn : Live s.next (.made s.next :: s.log) := ⟨List.mem_cons_self .., by simpa using hcl⟩
  refine ⟨⟨s.vars ++ [.ptr s.next], upd s.cnt s.next 0, s.next + 1, .made s.next :: s.log⟩, upd val s.next (ofBool true),
    by simp only [Shared.copyNamed, Shared.step, hj, if_pos hl, if_true], ?_, ?_, ?_, ?_, ?_⟩
  · simp [Shared.read, List.getElem?_append_left hjl, hj, hl', upd_ne _ _ hne]
  · simp [Shared.read, hn, ofBool]
  · intro hs
    have := hs 2 (upd (upd val s.next 1) r 2) (by simp [Shared.write, List.getElem?_append_left hjl, hj, hl', ofBool])
    simp only [Shared.read, List.getElem?_concat_length, if_pos hn, Res.ok.injEq, upd_ne _ _ (Ne.symm hne), upd_self] at this
    omega
  · intro hs
    have := hs (val r + 1) (upd (upd val s.next 1) s.next (val r + 1)) (by simp [Shared.write, hn, ofBool])
    simp only [Shared.read, List.getElem?_append_left hjl, hj, if_pos hl', Res.ok.injEq, upd_ne _ _ hne] at this
    omega
  · simp only [Shared.owners, List.count_append]
    have : List.count (Shared.Slot.ptr r) [.ptr s.next] = 0 := by
      simp [List.count_cons, Ne.symm hne]
    omega

example : ∃ s, Reach Shared.step Shared.pre Shared.init s ∧ (s.vars, s.log) = ([.ptr 0], [.made 0]) :=
  Reach.witness [.create true] _ _ (by decide +kernel)

/-- A null pointer copied by name is undefined; a const one too (`C30_copy_null_ub`). -/
theorem C142_named_null_ub {s : Shared.St} {val : Val} {j : Nat} {alloc : Bool} (hj : s.vars[j]? = some .null) :
    Shared.copyNamed s val j alloc = .ub := by simp [Shared.copyNamed, hj]

/-- C142 fails for `UniquePointer`: copying is meant to be impossible, but in every execution an ordinary variable can be
"copied": the new variable owns a new object, 1 if the source owned one and 0 if it was null; the source is as before. -/
theorem C142_unique_violated {s : Unique.St} (h : Reach Unique.step Unique.pre Unique.init s) (val : Val) {i j : Nat}
    {p : Option Nat} (hi : s.vars i = none) (hj : s.vars j = some p) :
    ∃ s' val' r, Unique.copyNamed s val i j true = .ok (s', val') ∧ s'.vars i = some (some r) ∧ s'.vars j = some p ∧
      (∀ k, s.vars k ≠ some (some r)) ∧ val' r = (if p = none then 0 else 1) ∧
      Reach Unique.step Unique.pre Unique.init s' := by
  have hij : j ≠ i := by intro e; subst e; rw [hi] at hj; cases hj
  have hs : Unique.step s (.create i true) =
      .ok { vars := upd s.vars i (some (some s.next)), next := s.next + 1, log := .made s.next :: s.log } := by
    simp [Unique.step, hi]
  refine ⟨_, upd val s.next (ofBool p.isSome), s.next, by simp only [Unique.copyNamed, hj, hs, if_true], by simp, by simp [upd_ne _ _ hij, hj], ?_, ?_,
    .step h (o := .create i true) hi hs⟩
  · intro k hk
    have hinv := Unique.reach_inv h
    have := hinv.fresh s.next (hinv.ledger.ownedLive k s.next (by simp [Unique.owner, hk])).1
    omega
  · cases p <;> simp [ofBool]

example : ∃ s, Reach Unique.step Unique.pre Unique.init s ∧ (s.vars 0, s.vars 1, s.log) = (some (some 0), none, [.made 0]) :=
  Reach.witness [.create 0 true] _ _ (by decide +kernel)

namespace Flame
open Own
example := C142_const_shares (s := visit Shared.step Shared.pre Shared.init [.create true]) (val := fun _ => 5) (j := 0) (r := 0) (by decide +kernel)
  (by decide +kernel)
example := C142_named_null_ub (s := ⟨[.null], fun _ => 0, 0, []⟩) (val := fun _ => 5) (j := 0) (alloc := true) rfl
end Flame

end Flame
