import Verif.Own.Book
import Verif.Own.NativeProps

/-!
# C44 and C43, exactly: which histories are defined, and what they lose

Nothing is assumed about the histories, nor (for the native objects) about how the C library initialises its objects: `looks r` says whether the bytes of native
object `r` equal the initializer constant.
-/

namespace Flame.NativeSpec
open Flame.Own Flame.Own.Native

/-- Specification: defined calls: variables are declared (once), only objects that hold something are locked, and only semaphores are move constructed. -/
def Defined (c : Cls) (s : St) : Op → Prop
  | .create i => s.vars i = none
  | .moveCtor i j => c = .semaphore ∧ s.vars i = none ∧ s.vars j ≠ none
  | .moveAssign i j => s.vars i ≠ none ∧ s.vars j ≠ none
  | .drop i => s.vars i ≠ none
  | .use i => ∃ r, owner s i = some r

/-- Specification: the native object nobody will destroy after the call.  A destructor, and an assignment to a `Mutex` or `Spin`, loses what looks like the initializer; an
assignment to a `Semaphore` loses what does not. -/
def losing (looks : Nat → Bool) (c : Cls) (s : St) : Op → List Nat
  | .drop i => (owner s i).toList.filter looks
  | .moveAssign i _ => (owner s i).toList.filter fun r => if c = .semaphore then !looks r else looks r
  | _ => []

abbrev Hist (looks : Nat → Bool) (c : Cls) := LossHist (step looks c) (losing looks c) init

structure Inv (s : St) (lost : List Nat) : Prop where
  book : OBook (owner s) lost s.log
  fresh : ∀ r, .made r ∈ s.log → r < s.next
  noIndet : ∀ i, s.vars i ≠ some .indet

theorem moved_indet {s : St} (h : ∀ i, s.vars i ≠ some .indet) {i j : Nat} {v : Ctx} (hj : s.vars j = some v) (k : Nat) :
    (upd (upd s.vars i (some v)) j (some Ctx.initializer)) k ≠ some .indet := by
  by_cases hkj : k = j
  · subst hkj; simp
  · rw [upd_ne _ _ hkj]
    by_cases hki : k = i
    · subst hki; rw [upd_self, ← hj]; exact h j
    · rw [upd_ne _ _ hki]; exact h k

/-- The context of variable `i` is destroyed or left alone, according to whether `keep` holds of its object. -/
theorem dispose {s : St} {lost : List Nat} (h : Inv s lost) {i : Nat} {v : Ctx} (hv : s.vars i = some v) (keep : Nat → Bool) {log : List Ev}
    (hi : v = .initializer → log = s.log ∨ log = .closedNothing :: s.log)
    (hk : ∀ r, v = .obj r → log = if keep r then s.log else .closed r :: s.log) :
    OBook (upd (owner s) i none) ((owner s i).toList.filter keep ++ lost) log ∧ ∀ r, .made r ∈ log → .made r ∈ s.log := by
  cases v with
  | indet => exact absurd hv (h.noIndet i)
  | initializer =>
    have ho : owner s i = none := by simp [owner, hv, ctxObj]
    have hs : ∀ k, upd (owner s) i none k = owner s k := by
      intro k
      by_cases hk : k = i
      · subst hk; rw [upd_self, ho]
      · rw [upd_ne _ _ hk]
    have hl : (owner s i).toList.filter keep = [] := by simp [ho]
    rw [hl]
    rcases hi rfl with e | e
    · rw [e]; exact ⟨h.book.congr hs, fun _ hr => hr⟩
    · rw [e]; exact ⟨h.book.nothing.congr hs, fun r hr => by simpa using hr⟩
  | obj r =>
    have ho : owner s i = some r := by simp [owner, hv, ctxObj]
    have e := hk r rfl
    cases hc : keep r with
    | true =>
      rw [hc, if_pos rfl] at e
      have hl : (owner s i).toList.filter keep = (owner s i).toList := by simp [ho, hc]
      rw [hl, e]
      exact ⟨h.book.forget i, fun _ hr => hr⟩
    | false =>
      rw [hc, if_neg (by simp)] at e
      have hl : (owner s i).toList.filter keep = [] := by simp [ho, hc]
      rw [hl, e]
      exact ⟨h.book.close ho, fun q hq => by simpa using hq⟩

/-- What an assignment does to the target's context. -/
theorem assign_log (looks : Nat → Bool) (c : Cls) {s : St} {lost : List Nat} (h : Inv s lost) {i : Nat} {v : Ctx} (hv : s.vars i = some v) :
    ∃ log, assignLog looks c s.log v = .ok log ∧ (v = .initializer → log = s.log ∨ log = .closedNothing :: s.log) ∧
      ∀ r, v = .obj r → log = if (if c = .semaphore then !looks r else looks r) then s.log else .closed r :: s.log := by
  cases v with
  | indet => exact absurd hv (h.noIndet i)
  | initializer => cases c <;> simp [assignLog, isInit, destroy]
  | obj r =>
    have hl := h.book.isOpen i r (by simp [owner, hv, ctxObj])
    cases hb : looks r <;> cases c <;> simp [assignLog, isInit, destroy, hb, hl]

theorem drop_log (looks : Nat → Bool) {s : St} {lost : List Nat} (h : Inv s lost) {i : Nat} {v : Ctx} (hv : s.vars i = some v) :
    ∃ log, dropLog looks s.log v = .ok log ∧ (v = .initializer → log = s.log ∨ log = .closedNothing :: s.log) ∧
      ∀ r, v = .obj r → log = if looks r then s.log else .closed r :: s.log := by
  cases v with
  | indet => exact absurd hv (h.noIndet i)
  | initializer => simp [dropLog, isInit]
  | obj r =>
    have hl := h.book.isOpen i r (by simp [owner, hv, ctxObj])
    cases hb : looks r <;> simp [dropLog, isInit, destroy, hb, hl]

theorem step_book (looks : Nat → Bool) (c : Cls) {s : St} {lost : List Nat} (h : Inv s lost) {o : Op} (hp : Defined c s o) :
    ∃ s', step looks c s o = .ok s' ∧ Inv s' (losing looks c s o ++ lost) := by
  cases o with
  | create i =>
    have hv : s.vars i = none := hp
    have ho : owner s i = none := by simp [owner, hv]
    refine ⟨_, by simp only [step, hv]; rfl, (h.book.make ho (fun hm => Nat.lt_irrefl _ (h.fresh _ hm))).congr fun k => ?_, ?_, ?_⟩
    · show (upd s.vars i (some (.obj s.next)) k).bind ctxObj = _
      by_cases hk : k = i
      · subst hk; simp [ctxObj]
      · rw [upd_ne _ _ hk, upd_ne _ _ hk]; rfl
    · intro r hr
      show r < s.next + 1
      rcases List.mem_cons.mp hr with e | e
      · injection e with e; omega
      · exact Nat.lt_succ_of_lt (h.fresh r e)
    · intro k
      show upd s.vars i _ k ≠ _
      by_cases hk : k = i
      · subst hk; simp
      · rw [upd_ne _ _ hk]; exact h.noIndet k
  | moveCtor i j =>
    obtain ⟨hc, hi, hj⟩ := hp
    subst hc
    obtain ⟨v, hv⟩ := Option.ne_none_iff_exists'.mp hj
    have ho : owner s i = none := by simp [owner, hi]
    refine ⟨{ s with vars := upd (upd s.vars i (some v)) j (some .initializer), log := .closedNothing :: s.log },
      by simp [step, hi, hv, assignLog, startCtx, isInit, destroy], ?_, fun r hr => h.fresh r (by simpa using hr), moved_indet h.noIndet hv⟩
    exact (h.book.nothing.hand (i := i) (j := j) ho).congr (moved_owner hv)
  | moveAssign i j =>
    obtain ⟨hi, hj⟩ := hp
    obtain ⟨u, hu⟩ := Option.ne_none_iff_exists'.mp hi
    obtain ⟨v, hv⟩ := Option.ne_none_iff_exists'.mp hj
    obtain ⟨log, e, h1, h2⟩ := assign_log looks c h hu
    obtain ⟨hb, hm⟩ := dispose h hu (fun r => if c = .semaphore then !looks r else looks r) h1 h2
    refine ⟨{ s with vars := upd (upd s.vars i (some v)) j (some .initializer), log := log }, by simp only [step, hu, hv, e],
      (hb.receive j).congr (moved_owner hv), fun r hr => h.fresh r (hm r hr), moved_indet h.noIndet hv⟩
  | drop i =>
    obtain ⟨u, hu⟩ := Option.ne_none_iff_exists'.mp (show s.vars i ≠ none from hp)
    obtain ⟨log, e, h1, h2⟩ := drop_log looks h hu
    obtain ⟨hb, hm⟩ := dispose h hu looks h1 h2
    refine ⟨{ s with vars := upd s.vars i none, log := log }, by simp only [step, hu, e], hb.congr fun k => ?_, fun r hr => h.fresh r (hm r hr), ?_⟩
    · show (upd s.vars i none k).bind ctxObj = _
      by_cases hk : k = i
      · subst hk; simp
      · rw [upd_ne _ _ hk, upd_ne _ _ hk]; rfl
    · intro k
      show upd s.vars i _ k ≠ _
      by_cases hk : k = i
      · subst hk; simp
      · rw [upd_ne _ _ hk]; exact h.noIndet k
  | use i =>
    obtain ⟨r, ho⟩ := hp
    have hv : s.vars i = some (.obj r) := by
      cases hv : s.vars i with
      | none => simp [owner, hv] at ho
      | some v => cases v <;> simp [owner, hv, ctxObj] at ho; rw [ho]
    refine ⟨{ s with log := .used r :: s.log }, by simp [step, hv, h.book.isOpen i r ho], h.book.use ho, fun q hq => h.fresh q (by simpa using hq), h.noIndet⟩

theorem defined_of_ok {looks : Nat → Bool} {c : Cls} {s s' : St} {o : Op} (e : step looks c s o = .ok s') : Defined c s o := by
  cases o with
  | create i => cases hv : s.vars i <;> simp_all [step, Defined]
  | moveCtor i j =>
    have hc : c = .semaphore := Classical.byContradiction fun hc => by rw [C44_move_ctor_ub looks hc] at e; cases e
    refine ⟨hc, ?_, fun hv => ?_⟩
    · cases hv : s.vars i with
      | none => rfl
      | some v => simp [step, hv] at e
    · cases hu : s.vars i <;> simp [step, hv, hu] at e
  | moveAssign i j =>
    refine ⟨fun hv => ?_, fun hv => ?_⟩
    · simp [step, hv] at e
    · cases hu : s.vars i <;> simp [step, hv, hu] at e
  | drop i => intro hv; simp [step, hv] at e
  | use i =>
    cases hv : s.vars i with
    | none => simp [step, hv] at e
    | some v => cases v <;> simp [step, hv] at e; exact ⟨_, by simp only [owner, hv]; rfl⟩

theorem hist_inv {looks : Nat → Bool} {c : Cls} {s : St} {lost : List Nat} (h : Hist looks c s lost) : Inv s lost := by
  induction h with
  | start => exact ⟨OBook.init.congr (by intro i; rfl), by simp [init], by simp [init]⟩
  | step _ e ih =>
    obtain ⟨t, ht, hi⟩ := step_book looks c ih (defined_of_ok e)
    rw [e] at ht
    injection ht with ht
    subst ht
    exact hi

end Flame.NativeSpec

namespace Flame.LibSpec
open Flame.Own Flame.Own.Lib

/-- Specification: defined calls: variables are declared (once), moved-from objects are neither used nor destroyed. -/
def Defined (s : St) : Op → Prop
  | .create i | .load i _ => s.vars i = none
  | .moveCtor i j => s.vars i = none ∧ s.vars j ≠ none
  | .moveAssign i j => s.vars i ≠ none ∧ s.vars j ≠ none
  | .use i | .drop i => ∃ x, s.vars i = some (.cell x)

/-- Specification: the library nobody will close after the call: the one assigned over. -/
def losing (s : St) : Op → List Nat
  | .moveAssign i _ => (owner s i).toList
  | _ => []

abbrev Hist := LossHist step losing init

structure Inv (s : St) (lost : List Nat) : Prop where
  book : OBook (owner s) lost s.log
  fresh : ∀ r, .made r ∈ s.log → r < s.next

theorem owner_upd (s : St) (i k : Nat) (o : Option Handle) : ((upd s.vars i o) k).bind handleLib = upd (owner s) i (o.bind handleLib) k := by
  by_cases hk : k = i
  · subst hk; simp
  · rw [upd_ne _ _ hk, upd_ne _ _ hk]; rfl

theorem upd_idle {s : St} {i : Nat} (ho : owner s i = none) (k : Nat) : upd (owner s) i none k = owner s k := by
  by_cases hk : k = i
  · subst hk; rw [upd_self, ho]
  · rw [upd_ne _ _ hk]

theorem step_book {s : St} {lost : List Nat} (h : Inv s lost) {o : Op} (hp : Defined s o) : ∃ s', step s o = .ok s' ∧ Inv s' (losing s o ++ lost) := by
  cases o with
  | create i =>
    have hv : s.vars i = none := hp
    have ho : owner s i = none := by simp [owner, hv]
    exact ⟨{ s with vars := upd s.vars i (some (.cell none)), cells := s.cells + 1 }, by simp [step, hv],
      h.book.congr fun k => (owner_upd s i k _).trans (upd_idle ho k), h.fresh⟩
  | load i found =>
    have hv : s.vars i = none := hp
    have ho : owner s i = none := by simp [owner, hv]
    cases found with
    | false =>
      exact ⟨{ s with vars := upd s.vars i (some (.cell none)), cells := s.cells + 1 }, by simp [step, hv],
        h.book.congr fun k => (owner_upd s i k _).trans (upd_idle ho k), h.fresh⟩
    | true =>
      refine ⟨_, by simp only [step, hv, if_true]; rfl, (h.book.make ho (fun hm => Nat.lt_irrefl _ (h.fresh _ hm))).congr fun k => owner_upd s i k _, ?_⟩
      intro r hr
      show r < s.next + 1
      rcases List.mem_cons.mp hr with e | e
      · injection e with e; omega
      · exact Nat.lt_succ_of_lt (h.fresh r e)
  | moveCtor i j =>
    obtain ⟨hi, hj⟩ := hp
    obtain ⟨v, hv⟩ := Option.ne_none_iff_exists'.mp hj
    have ho : owner s i = none := by simp [owner, hi]
    exact ⟨{ s with vars := upd (upd s.vars i (some v)) j (some .null) }, by simp [step, hi, hv],
      (h.book.hand (i := i) (j := j) ho).congr (moved_owner hv), h.fresh⟩
  | moveAssign i j =>
    obtain ⟨hi, hj⟩ := hp
    obtain ⟨u, hu⟩ := Option.ne_none_iff_exists'.mp hi
    obtain ⟨v, hv⟩ := Option.ne_none_iff_exists'.mp hj
    exact ⟨{ s with vars := upd (upd s.vars i (some v)) j (some .null) }, by simp [step, hu, hv],
      ((h.book.forget i).receive j).congr (moved_owner hv), h.fresh⟩
  | use i =>
    obtain ⟨x, hv⟩ := hp
    cases x with
    | none => exact ⟨s, by simp [step, hv, handleRef], h⟩
    | some r =>
      have ho : owner s i = some r := by simp [owner, hv, handleLib]
      exact ⟨{ s with log := .used r :: s.log }, by simp [step, hv, handleRef, h.book.isOpen i r ho], h.book.use ho, fun q hq => h.fresh q (by simpa using hq)⟩
  | drop i =>
    obtain ⟨x, hv⟩ := hp
    cases x with
    | none =>
      have ho : owner s i = none := by simp [owner, hv, handleLib]
      exact ⟨{ s with vars := upd s.vars i none }, by simp [step, hv, handleRef], h.book.congr fun k => (owner_upd s i k _).trans (upd_idle ho k), h.fresh⟩
    | some r =>
      have ho : owner s i = some r := by simp [owner, hv, handleLib]
      exact ⟨{ s with vars := upd s.vars i none, log := .closed r :: s.log, cells := s.cells - 1 }, by simp [step, hv, handleRef, h.book.isOpen i r ho],
        (h.book.close ho).congr fun k => owner_upd s i k _, fun q hq => h.fresh q (by simpa using hq)⟩

theorem defined_of_ok {s s' : St} {o : Op} (e : step s o = .ok s') : Defined s o := by
  cases o with
  | create i => cases hv : s.vars i <;> simp_all [step, Defined]
  | load i b => cases hv : s.vars i <;> simp_all [step, Defined]
  | moveCtor i j =>
    refine ⟨?_, fun hv => ?_⟩
    · cases hv : s.vars i with
      | none => rfl
      | some v => simp [step, hv] at e
    · cases hu : s.vars i <;> simp [step, hv, hu] at e
  | moveAssign i j =>
    refine ⟨fun hv => ?_, fun hv => ?_⟩
    · simp [step, hv] at e
    · cases hu : s.vars i <;> simp [step, hv, hu] at e
  | use i =>
    cases hv : s.vars i with
    | none => simp [step, hv] at e
    | some v =>
      cases v with
      | null => simp [step, hv, handleRef] at e
      | cell x => exact ⟨x, hv⟩
  | drop i =>
    cases hv : s.vars i with
    | none => simp [step, hv] at e
    | some v =>
      cases v with
      | null => simp [step, hv, handleRef] at e
      | cell x => exact ⟨x, hv⟩

theorem hist_inv {s : St} {lost : List Nat} (h : Hist s lost) : Inv s lost := by
  induction h with
  | start => exact ⟨OBook.init.congr (by intro i; rfl), by simp [init]⟩
  | step _ e ih =>
    obtain ⟨t, ht, hi⟩ := step_book ih (defined_of_ok e)
    rw [e] at ht
    injection ht with ht
    subst ht
    exact hi

end Flame.LibSpec

namespace Flame
open Own

/-- **C44, exactly: defined calls.**  Whatever the C library's objects look like: after every history, a call is defined if and only if its objects are declared, an object
that is locked holds a native object, and it is not the move construction of a `Mutex` or `Spin`. -/
theorem C44_defined_exact {looks : Nat → Bool} {c : Native.Cls} {s : Native.St} {lost : List Nat} (h : NativeSpec.Hist looks c s lost) (o : Native.Op) :
    (∃ s', Native.step looks c s o = .ok s') ↔ NativeSpec.Defined c s o :=
  ⟨fun ⟨_, e⟩ => NativeSpec.defined_of_ok e, fun hd => let ⟨s', e, _⟩ := NativeSpec.step_book looks c (NativeSpec.hist_inv h) hd; ⟨s', e⟩⟩

/-- **C44, exactly: lost native objects.**  After every defined history: no native object was destroyed twice or used after its destruction; one that exists is held by
exactly one variable or is among those the history lost; once all variables are gone each was destroyed exactly once if and only if nothing was lost, that is: no
destructor and no assignment to a `Mutex` or `Spin` met a held object that looks like the initializer, no assignment to a `Semaphore` met one that does not. -/
theorem C44_lost_exact {looks : Nat → Bool} {c : Native.Cls} {s : Native.St} {lost : List Nat} (h : NativeSpec.Hist looks c s lost) :
    Proper s.log ∧ (∀ r, Live r s.log ↔ (∃ i, Native.owner s i = some r) ∨ r ∈ lost) ∧
    ((∀ i, s.vars i = none) → (∀ r, Live r s.log ↔ r ∈ lost) ∧ (ReleasedOnce s.log ↔ lost = [])) :=
  let ⟨a, b, d⟩ := (NativeSpec.hist_inv h).book.exact
  ⟨a, b, fun hg => d fun i => by simp [Native.owner, hg i]⟩

-- semaphores: one that looks like the initializer is destroyed by an assignment and lost by the destructor, the other way round for one that does not
example : ∃ s, NativeSpec.Hist (fun r => r == 0) .semaphore s [2, 1] ∧ (s.log, s.vars 0, s.vars 1, s.vars 2) =
    ([.closed 3, .closed 0, .made 3, .made 2, .made 1, .made 0], none, none, some .initializer) :=
  LossHist.witness [.create 0, .create 1, .create 2, .create 3, .moveAssign 0 3, .moveAssign 1 2, .moveAssign 1 1, .drop 1, .drop 0] _ _ (by decide)

example : ∃ s, NativeSpec.Hist (fun r => r == 0) .mutex s [0] ∧ (s.log, s.vars 0, s.vars 1) = ([.closed 1, .used 1, .made 1, .made 0], none, none) :=
  LossHist.witness [.create 0, .create 1, .moveAssign 0 1, .use 0, .drop 0, .drop 1] _ _ (by decide)

/-- **C43, exactly: defined calls.**  After every history, a call on `Library` objects is defined if and only if its objects are declared and it neither uses nor destroys a
moved-from object. -/
theorem C43_defined_exact {s : Lib.St} {lost : List Nat} (h : LibSpec.Hist s lost) (o : Lib.Op) : (∃ s', Lib.step s o = .ok s') ↔ LibSpec.Defined s o :=
  ⟨fun ⟨_, e⟩ => LibSpec.defined_of_ok e, fun hd => let ⟨s', e, _⟩ := LibSpec.step_book (LibSpec.hist_inv h) hd; ⟨s', e⟩⟩

/-- **C43, exactly: lost libraries.**  After every defined history: no library was closed twice or used after closing; a loaded library is held by exactly one object or was lost; and
when nothing is held any more, each library was closed exactly once if and only if no object holding one was ever assigned over. -/
theorem C43_lost_exact {s : Lib.St} {lost : List Nat} (h : LibSpec.Hist s lost) :
    Proper s.log ∧ (∀ r, Live r s.log ↔ (∃ i, Lib.owner s i = some r) ∨ r ∈ lost) ∧
    ((∀ i, Lib.owner s i = none) → (∀ r, Live r s.log ↔ r ∈ lost) ∧ (ReleasedOnce s.log ↔ lost = [])) := (LibSpec.hist_inv h).book.exact

-- a library is lost by assigning over it and another by assigning an object to itself
example : ∃ s, LibSpec.Hist s [2, 0] ∧ (s.log, s.vars 0, s.vars 2) = ([.closed 1, .used 1, .made 2, .made 1, .made 0], none, some .null) :=
  LossHist.witness [.load 0 true, .load 1 true, .load 2 true, .moveAssign 0 1, .use 0, .moveAssign 2 2, .drop 0] _ _ (by decide)

namespace Flame
example : ∃ s, (∃ s', Native.step (fun r => r == 0) .mutex s (.use 0) = .ok s') ↔ NativeSpec.Defined .mutex s (.use 0) :=
  (show ∃ s, NativeSpec.Hist (fun r => r == 0) .mutex s [0] ∧ s.log = [.made 1, .made 0] from
    LossHist.witness [.create 0, .create 1, .moveAssign 0 1] _ _ (by decide)).imp fun _ h => C44_defined_exact h.1 (.use 0)
example : ∃ s, (∃ s', Lib.step s (.use 0) = .ok s') ↔ LibSpec.Defined s (.use 0) :=
  (show ∃ s, LibSpec.Hist s [0] ∧ s.log = [.made 1, .made 0] from
    LossHist.witness [.load 0 true, .load 1 true, .moveAssign 0 1] _ _ (by decide)).imp fun _ h => C43_defined_exact h.1 (.use 0)
end Flame

end Flame
