import Verif.Own.SharedProps
import Verif.Own.UniqueProps
import Verif.Own.NativeProps
import Verif.Own.ThreadProps
import Verif.Own.SocketProps
import Verif.Life.OptionalProps
import Verif.Life.ObjectProps
import Verif.Life.VariantProps
import Verif.Circular.Lemmas

/-!
# C179: an object assigned to itself is as it was

The assignments are those of the models of each class, with the same object on both sides; only `CircularArray` needs a definition of its own.
-/

namespace Flame
open Own

/-! ### Where it holds -/

/-- **C179 for `Optional`, copying.**  Value, object and what is filled stay, nothing is constructed or destroyed. -/
theorem C179_optional_partial {V : Type} {moved : V → V} {s : Life.Optional.St V} (h : Life.Optional.Inv s) {i : Nat} {x : Life.Optional.Var V}
    (hx : s.vars i = some x) :
    ∃ s', Life.Optional.step moved s (.assign i i) = .ok s' ∧ s'.vars i = some x ∧ (∀ k, k ≠ i → s'.vars k = s.vars k) ∧
      (∀ r, Live r s'.log ↔ Live r s.log) ∧ s'.next = s.next := by
  obtain ⟨f, m⟩ := x
  cases f with
  | false =>
    exact ⟨s, by simp [Life.Optional.step, Life.Optional.assignCopy, hx], hx, fun _ _ => rfl, fun _ => Iff.rfl, rfl⟩
  | true =>
    obtain ⟨c, rfl⟩ := h.wf i m hx
    have hl : Live c.obj s.log := h.held.ownedLive i c.obj (by simp [Life.Optional.owner, hx])
    have hl' : Live c.obj (.used c.obj :: s.log) := ⟨List.mem_cons_of_mem _ hl.1, by simpa using hl.2⟩
    refine ⟨{ s with vars := upd s.vars i (some ⟨true, some ⟨c.obj, c.val⟩⟩), log := .used c.obj :: .used c.obj :: s.log },
      by simp [Life.Optional.step, Life.Optional.assignCopy, hx, Life.Optional.get, hl, Life.Optional.assignValue, Life.Optional.write, hl'],
      by simp, fun k hk => by simp [upd_ne _ _ hk], fun r => by simp [Live], rfl⟩

/-- **C179 for `Variant`** (and `HybridVector`, whose assignments are those of its `Variant`), copying and moving: nothing happens at all. -/
theorem C179_variant_partial {V : Type} (ts : List Nat) (moved : V → V) {s : Life.Variant.St V} {i : Nat} {x : Life.Variant.Var V} (hx : s.vars i = some x) :
    Life.Variant.step ts moved s (.assign i i) = .ok s ∧ Life.Variant.step ts moved s (.moveAssign i i) = .ok s := by
  simp [Life.Variant.step, hx]

/-- **C179 for `SharedPointer`, copying**: unless there are exactly two owners, everything stays. -/
theorem C179_shared_exact {s : Shared.St} (h : Reach Shared.step Shared.pre Shared.init s) {i r : Nat}
    (hi : s.vars[i]? = some (.ptr r)) (hl : Live r s.log) :
    (Shared.owners s r ≠ 2 → Shared.step s (.copyAssign i i) = .ok s) ∧
    (Shared.owners s r = 2 → Shared.step s (.copyAssign i i) = .ub) := by
  refine ⟨fun h2 => ?_, fun h2 => C30_self_assign_ub h hi hl h2⟩
  have hinv := Shared.reach_inv h
  have hpos : 1 ≤ Shared.owners s r := List.count_pos_iff.mpr (List.mem_of_getElem? hi)
  have hnz : (s.cnt r + (Shared.M - 1)) % Shared.M ≠ 0 := fun e => h2 ((Shared.dec_mod (hinv.count r hl) (hinv.cntLt r) hpos).2.mp e)
  have hc : Shared.cleanVar s i = .ok { s with cnt := upd s.cnt r ((s.cnt r + (Shared.M - 1)) % Shared.M) } := by
    simp [Shared.cleanVar, hi, hl, hnz]
  have hM := Shared.M_gt
  have hlt := hinv.cntLt r
  have back : (((s.cnt r + (Shared.M - 1)) % Shared.M) + 1) % Shared.M = s.cnt r := by
    rw [Nat.mod_add_mod, show s.cnt r + (Shared.M - 1) + 1 = s.cnt r + Shared.M by omega, Nat.add_mod_right, Nat.mod_eq_of_lt hlt]
  have hset : s.vars.set i (.ptr r) = s.vars := by
    apply List.ext_getElem?
    intro k
    rw [List.getElem?_set]
    by_cases e : i = k
    · subst e; rw [hi]; simp [(List.getElem?_eq_some_iff.mp hi).1]
    · simp [e]
  have hu : upd (upd s.cnt r ((s.cnt r + (Shared.M - 1)) % Shared.M)) r (s.cnt r) = s.cnt := by
    funext k; by_cases e : k = r
    · subst e; simp
    · simp [upd_ne _ _ e]
  simp [Shared.step, hc, Shared.incr, hi, hl, back, hset, hu]

/-! ### Where it does not -/

/-- **C179 fails for `SharedPointer`, moving.**  The pointer is null; the object of two owners is destroyed, which leaves the other one dangling. -/
theorem C179_shared_move_violated {s : Shared.St} (h : Reach Shared.step Shared.pre Shared.init s) {i r : Nat}
    (hi : s.vars[i]? = some (.ptr r)) (hl : Live r s.log) :
    ∃ s', Shared.step s (.moveAssign i i) = .ok s' ∧ s'.vars[i]? = some .null ∧ (.closed r ∈ s'.log ↔ Shared.owners s r = 2) := by
  have hinv := Shared.reach_inv h
  have hpos : 1 ≤ Shared.owners s r := List.count_pos_iff.mpr (List.mem_of_getElem? hi)
  have hz := (Shared.dec_mod (hinv.count r hl) (hinv.cntLt r) hpos).2
  have hlt : i < s.vars.length := (List.getElem?_eq_some_iff.mp hi).1
  by_cases h2 : Shared.owners s r = 2
  · have hc : Shared.cleanVar s i = .ok { s with
        vars := s.vars.set i .null
        cnt := upd s.cnt r ((s.cnt r + (Shared.M - 1)) % Shared.M)
        log := .closed r :: s.log } := by simp [Shared.cleanVar, hi, hl, hz.mpr h2]
    refine ⟨_, by simp only [Shared.step, hc, List.getElem?_set_self hlt]; rfl, by simp [hlt], by simp [h2]⟩
  · have hnz : (s.cnt r + (Shared.M - 1)) % Shared.M ≠ 0 := fun e => h2 (hz.mp e)
    have hc : Shared.cleanVar s i = .ok { s with cnt := upd s.cnt r ((s.cnt r + (Shared.M - 1)) % Shared.M) } := by
      simp [Shared.cleanVar, hi, hl, hnz]
    refine ⟨_, by simp only [Shared.step, hc, hi]; rfl, by simp [hlt], by simp [h2, hl.2]⟩

/-- **C179 fails for `UniquePointer`.**  Its object is destroyed and it is null. -/
theorem C179_unique_violated {s : Unique.St} (h : Reach Unique.step Unique.pre Unique.init s) {i r : Nat} (hi : s.vars i = some (some r)) :
    ∃ s', Unique.step s (.moveAssign i i) = .ok s' ∧ s'.vars i = some none ∧ .closed r ∈ s'.log ∧ .closed r ∉ s.log := by
  obtain ⟨log, hc, _⟩ := Unique.cleanValue_ok (Unique.reach_inv h) hi
  have hl : Live r s.log := by
    refine Classical.byContradiction fun hn => ?_
    simp [Unique.cleanValue, hn] at hc
  refine ⟨_, by simp only [Unique.step, hi, Unique.cleanValue, hl, if_true, upd_self]; rfl, by simp, by simp, hl.2⟩

/-- **C179 fails for `Object`.**  Its value is destroyed and it is empty. -/
theorem C179_object_violated {V : Type} {al : Nat → Nat} {s : Life.Object.St V} (h : Life.Object.Inv al s) {i a t : Nat} {m : Option (Life.Object.Cell V)}
    (hi : s.vars i = some ⟨a, some t, m⟩) :
    ∃ s' c, m = some c ∧ Life.Object.step al s (.moveAssign i i) = .ok s' ∧ s'.vars i = some ⟨a, none, m⟩ ∧ .closed c.obj ∈ s'.log ∧
      ∀ t', Life.Object.step al s' (.read i t') = .ub := by
  obtain ⟨c, rfl, ht, ho⟩ := h.wf i a t m hi
  have hl : Live c.obj s.log := h.held.ownedLive i c.obj (by simp [Life.Object.owner, hi])
  have hdead : ¬ Live c.obj (.closed c.obj :: s.log) := by simp [Live]
  refine ⟨_, c, rfl, by simp [Life.Object.step, Life.Object.assignMove, hi, Life.Object.destroy, Life.Object.at', ht, ho, hl, Life.Object.transfer]; rfl,
    by simp, by simp, fun t' => ?_⟩
  simp [Life.Object.step, Life.Object.get, Life.Object.at', hdead]

/-- **C179 fails for `Mutex` and `Spin`.**  The native object is destroyed; the object cannot be used any more. -/
theorem C179_mutex_violated {looks : Nat → Bool} {c : Native.Cls} (hc : c ≠ .semaphore) {s : Native.St} {i r : Nat} (hi : s.vars i = some (.obj r))
    (hl : Live r s.log) (hr : looks r = false) :
    ∃ s', Native.step looks c s (.moveAssign i i) = .ok s' ∧ .closed r ∈ s'.log ∧ Native.step looks c s' (.use i) = .ub := by
  cases c with
  | semaphore => exact absurd rfl hc
  | mutex =>
    exact ⟨_, by simp [Native.step, hi, Native.assignLog, Native.isInit, hr, Native.destroy, hl]; rfl, by simp, by simp [Native.step]⟩
  | spin =>
    exact ⟨_, by simp [Native.step, hi, Native.assignLog, Native.isInit, hr, Native.destroy, hl]; rfl, by simp, by simp [Native.step]⟩

/-- **C179 fails for `Semaphore`.**  The native object stays and nobody has it; the object cannot be used any more. -/
theorem C179_semaphore_violated {looks : Nat → Bool} {s : Native.St} (h : Native.Inv s) {i r : Nat} (hi : s.vars i = some (.obj r)) (hr : looks r = false) :
    ∃ s', Native.step looks .semaphore s (.moveAssign i i) = .ok s' ∧ Live r s'.log ∧ (∀ k, s'.vars k ≠ some (.obj r)) ∧
      Native.step looks .semaphore s' (.use i) = .ub := by
  have hl : Live r s.log := h.ledger.ownedLive i r (by simp [Native.owner, Native.ctxObj, hi])
  refine ⟨{ s with vars := upd (upd s.vars i (some (.obj r))) i (some .initializer) }, by simp [Native.step, hi, Native.assignLog, Native.isInit, hr], hl, fun k hk => ?_, by simp [Native.step]⟩
  by_cases e : k = i
  · subst e; simp at hk
  · simp only [upd_ne _ _ e] at hk
    exact e (h.ledger.unique k i r (by simp [Native.owner, Native.ctxObj, hk]) (by simp [Native.owner, Native.ctxObj, hi]))

/-- **C179 fails for `Library`.**  The library stays open and nobody has it; asking or destroying the object is undefined. -/
theorem C179_library_violated {s : Lib.St} (h : Reach Lib.step Lib.careful Lib.init s) {i r : Nat} (hi : s.vars i = some (.cell (some r))) :
    ∃ s', Lib.step s (.moveAssign i i) = .ok s' ∧ Live r s'.log ∧ (∀ k, Lib.owner s' k ≠ some r) ∧ Lib.step s' (.use i) = .ub ∧ Lib.step s' (.drop i) = .ub := by
  have hinv := Lib.reach_inv h
  have hl : Live r s.log := hinv.ledger.ownedLive i r (by simp [Lib.owner, hi, Lib.handleLib])
  refine ⟨{ s with vars := upd (upd s.vars i (some (.cell (some r)))) i (some .null) }, by simp [Lib.step, hi], hl, fun k hk => ?_, by simp [Lib.step, Lib.handleRef], by simp [Lib.step, Lib.handleRef]⟩
  by_cases e : k = i
  · subst e; simp [Lib.owner, Lib.handleLib] at hk
  · simp only [Lib.owner, upd_ne _ _ e] at hk
    exact e (hinv.ledger.unique k i r (by simpa [Lib.owner] using hk) (by simp [Lib.owner, hi, Lib.handleLib]))

/-- **C179 fails for threads.**  The running thread can never be joined any more, whatever is done afterwards. -/
theorem C179_thread_violated {s : Own.Thread.St} (h : Reach Own.Thread.step Own.Thread.careful Own.Thread.init s) {i r : Nat}
    (hi : Own.Thread.owner s i = some r) :
    ∃ s', Own.Thread.step s (.moveAssign i i) = .ok s' ∧ s'.vars i = some ⟨.initializer, 0⟩ ∧
      ∀ os s'', runOps Own.Thread.step s' os = .ok s'' → Live r s''.log := by
  have hinv := Own.Thread.reach_inv h
  obtain ⟨st, hv⟩ := Own.Thread.owner_thr hi
  have hl := hinv.ledger.ownedLive i r hi
  refine ⟨{ s with vars := upd (upd s.vars i (some ⟨.thr r, st⟩)) i (some ⟨.initializer, 0⟩) }, by simp [Own.Thread.step, hv, Own.Thread.isInit], by simp, fun os s'' hs => ?_⟩
  refine Own.Thread.lost_forever (r := r) ?_ hs
  refine ⟨hl, hinv.fresh r hl.1, fun k st' hk => ?_⟩
  by_cases e : k = i
  · subst e; simp at hk
  · simp only [upd_ne _ _ e] at hk
    exact e (hinv.ledger.unique k i r (by simp [Own.Thread.owner, Own.Thread.ctxThr, hk]) hi)

/-- **C179 fails for sockets.**  The connection stays open and nobody has it; the object is left with descriptor 0, the process's standard input, which its
destructor closes. -/
theorem C179_socket_violated {c : Sock.Cls} {t : Int → Bool} (h0 : t 0 = true) (h1 : t (-1) = false) {s : Sock.St}
    (h : Reach (Sock.step c) (Sock.careful c) (Sock.start t) s) {i r : Nat} (hi : Sock.owner s i = some r) :
    ∃ s', Sock.step c s (.moveAssign i i) = .ok s' ∧ s'.vars i = some ⟨0, 0⟩ ∧ Live r s'.log ∧ ∀ k, Sock.owner s' k ≠ some r := by
  have hinv := Sock.reach_inv h0 h1 h
  obtain ⟨v, hv, ht⟩ := Sock.owner_some.mp hi
  have hl := hinv.ledger.ownedLive i r hi
  refine ⟨{ s with vars := upd (upd s.vars i (some v)) i (some ⟨Sock.initializerFd, Sock.STATUS_SUCCESS⟩) }, by simp [Sock.step, hv], by simp [Sock.initializerFd, Sock.STATUS_SUCCESS], hl, fun k hk => ?_⟩
  obtain ⟨w, hw, hwt⟩ := Sock.owner_some.mp hk
  by_cases e : k = i
  · subst e
    simp only [upd_self, Option.some.injEq] at hw
    subst hw
    have hz := hinv.zero
    simp only [Sock.initializerFd] at hwt
    rw [hz] at hwt; cases hwt
  · simp only [upd_ne _ _ e] at hw
    exact e (hinv.ledger.unique k i r (Sock.owner_some.mpr ⟨w, hw, hwt⟩) hi)

/-- CircularArray.hpp 297-305 with the object itself as the source (state effect, see `CArr.assignState`): `clean()` empties the source too. -/
def CArr.assignSelf {α : Type} (triv : Bool) (c : CArr α) : Res (CArr α) :=
  match c.clean triv with
  | .ok d => CArr.assignState triv d d
  | .ub => .ub
  | .loop => .loop

/-- **C179 fails for `CircularArray`.**  It is empty afterwards (elements of a trivial type; with others emptying a filled array is undefined already). -/
theorem C179_circular_violated {α : Type} {c : CArr α} {l : List α} (r : CArr.Rep c l) :
    (∃ c', CArr.assignSelf true c = .ok c' ∧ CArr.Rep c' []) ∧ (l ≠ [] → CArr.assignSelf false c = .ub) := by
  have ht := CArr.toList_ok r
  have hp := r.pos
  have h0 : CArr.Rep { c with head := 0, tail := 0 } ([] : List α) :=
    ⟨hp, hp, by simpa using hp, by simp [CArr.slot, hp], by simp⟩
  have hs : CArr.size { c with head := 0, tail := 0 } = 0 := by simpa using CArr.size_eq h0
  constructor
  · have h1 : CArr.clean true c = .ok { c with head := 0, tail := 0 } := by
      unfold CArr.clean; rw [ht]; cases l <;> rfl
    have h2 : CArr.clean true { c with head := 0, tail := 0 } = .ok { c with head := 0, tail := 0 } := by
      unfold CArr.clean; rw [CArr.toList_ok h0]
    have h3 : CArr.toListConst { c with head := 0, tail := 0 } = .ok [] := by
      unfold CArr.toListConst
      rw [hs, CArr.advance_eq (c := { c with head := 0, tail := 0 }) hp hp]
      simp [CArr.slot, hp, CArr.walk]
    exact ⟨{ c with head := 0, tail := 0 }, by simp [CArr.assignSelf, h1, CArr.assignState, h2, h3, CArr.place, Cells.constructList], h0⟩
  · intro hl
    cases l with
    | nil => exact absurd rfl hl
    | cons x xs => simp [CArr.assignSelf, CArr.clean, ht]

/-! ### The hypotheses are met -/

example : ∃ s, Reach Shared.step Shared.pre Shared.init s ∧ (s.vars, s.log) = ([.ptr 0, .ptr 0, .ptr 0], [.made 0]) :=
  Reach.witness (step := Shared.step) [.create true, .copyCtor 0, .copyCtor 1] (fun s => (s.vars, s.log)) _ (by decide +kernel)

example : ∃ s, Reach Unique.step Unique.pre Unique.init s ∧ s.vars 3 = some (some 0) :=
  Reach.witness (step := Unique.step) [.create 3 true] (fun s => s.vars 3) _ (by decide +kernel)

example : ∃ s, Reach (Native.step (fun _ => false) .mutex) (Native.careful .mutex) Native.init s ∧ (s.vars 1, s.log) = (some (.obj 0), [.made 0]) :=
  Reach.witness (step := Native.step (fun _ => false) .mutex) (pre := Native.careful .mutex) [.create 1] (fun s => (s.vars 1, s.log)) _ (by decide +kernel)

example : ∃ s, Reach Lib.step Lib.careful Lib.init s ∧ s.vars 2 = some (.cell (some 0)) :=
  Reach.witness (step := Lib.step) (pre := Lib.careful) [.load 2 true] (fun s => s.vars 2) _ (by decide +kernel)

example : ∃ s, Reach Own.Thread.step Own.Thread.careful Own.Thread.init s ∧ Own.Thread.owner s 0 = some 0 :=
  Reach.witness (step := Own.Thread.step) (pre := Own.Thread.careful) [.create 0, .run 0] (fun s => Own.Thread.owner s 0) _ (by decide +kernel)

example : ∃ s, Reach (Sock.step .base) (Sock.careful .base) (Sock.start fun d => d == 0) s ∧ Sock.owner s 0 = some 0 :=
  Reach.witness (step := Sock.step .base) (pre := Sock.careful .base) [.create 0 (some 5)] (fun s => Sock.owner s 0) _ (by decide +kernel)

example : Life.Object.step (fun _ => 8) ⟨fun _ => some ⟨16, some 4, some ⟨0, 4, 0, 7⟩⟩, 1, [.made 0]⟩ (.moveAssign 3 3) =
    .ok ⟨upd (fun _ => some ⟨16, some 4, some ⟨0, 4, 0, 7⟩⟩) 3 (some ⟨16, none, some ⟨0, 4, 0, 7⟩⟩), 1, [.closed 0, .made 0]⟩ := by
  simp [Life.Object.step, Life.Object.assignMove, Life.Object.destroy, Life.Object.at', Life.Object.shift, Life.Object.transfer, Live]

/-- Three elements lying across the end of the storage. -/
example : CArr.Rep (⟨[.live 2, .live 3, .raw, .live 1], 3, 2, 4⟩ : CArr Nat) [1, 2, 3] :=
  ⟨by decide, by decide, by decide, by decide, fun i a h => by
    match i with
    | 0 | 1 | 2 => simp at h; subst h; decide
    | n + 3 => simp at h⟩

namespace Flame
open Own
example := C179_shared_exact (.visit [.create true, .copyCtor 0, .copyCtor 1] (by decide +kernel)) (i := 1) (r := 0)
  (by decide +kernel) (by decide +kernel)
example := C179_shared_move_violated (.visit [.create true, .copyCtor 0] (by decide +kernel)) (i := 1) (r := 0)
  (by decide +kernel) (by decide +kernel)
example := C179_unique_violated (.visit [.create 3 true] (by decide +kernel)) (i := 3) (r := 0) (by decide +kernel)
example := C179_mutex_violated (looks := fun _ => false) (c := .mutex) (by decide)
  (s := visit (Native.step (fun _ => false) .mutex) (Native.careful .mutex) Native.init [.create 1]) (i := 1) (r := 0)
  (by decide +kernel) (by decide +kernel) rfl
example := C179_library_violated (.visit [.load 2 true] (by decide +kernel)) (i := 2) (r := 0) (by decide +kernel)
example := C179_thread_violated (.visit [.create 0, .run 0] (by decide +kernel)) (i := 0) (r := 0) (by decide +kernel)
example := C179_socket_violated (c := .base) (t := fun d => d == 0) (by decide) (by decide)
  (.visit [.create 0 (some 5)] (by decide +kernel)) (i := 0) (r := 0) (by decide +kernel)
example := C179_variant_partial [0, 1] (fun x : Nat => x) (s := ⟨fun _ => some ⟨1, some ⟨0, 1, 7⟩⟩, 1, [.made 0]⟩) (i := 2) rfl

namespace Flame
open Own
private theorem opt7 : Life.Optional.Inv (visit (Life.Optional.step (fun _ => 0)) Life.Optional.safe (Life.Optional.init : Life.Optional.St Nat) [.ctor 0 5]) :=
  Life.Optional.reach_inv (.visit _ (by decide +kernel))
example := C179_optional_partial (moved := fun _ => 0) opt7 (i := 0) rfl

namespace Flame
open Own
example := C179_object_violated (al := fun _ => 8) (s := visit (Life.Object.step fun _ => 8) (Life.Object.safe fun _ => 8) Life.Object.init
  ([.ctor 3 16 4 7] : List (Life.Object.Op Nat))) (Life.Object.reach_inv (.visit _ (by decide +kernel))) (i := 3) rfl
example := C179_semaphore_violated (looks := fun _ => false)
  (s := visit (Native.step (fun _ => false) .semaphore) (Native.careful .semaphore) Native.init ([.create 1] : List Native.Op))
  (Native.reach_inv (fun _ => rfl) (.visit _ (by decide +kernel))) (i := 1) (r := 0) (by decide +kernel) rfl
end Flame

end Flame
end Flame
end Flame
