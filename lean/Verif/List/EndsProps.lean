import Verif.List.Ends

/-!
# C181: a list used as a stack or a queue

Exactly which histories of pushing and popping at the two ends of a new list are carried out, what the list shows afterwards and whether it
can be destroyed.
-/

namespace Flame
open LL ListSpec
variable {α : Type}

namespace ListSpec

/-- The calls at the ends of a list. -/
inductive EndOp (α : Type) where
  | pushBack (x : α)
  | pushFront (x : α)
  | popBack
  | popFront
  | clean
  deriving Repr, DecidableEq

def EndOp.toOp : EndOp α → Op α
  | .pushBack x => .pushBack x
  | .pushFront x => .pushFront x
  | .popBack => .popBack
  | .popFront => .popFront
  | .clean => .clean

/-- How much of a list can be used: all of it, only its front (its only element was popped from the front), only its back (its only element
was popped from the back). -/
inductive Side where
  | both
  | front
  | back
  deriving Repr, DecidableEq

/-- Which calls are carried out, and what can be used afterwards (`l`: the contents before the call). -/
def side (s : Side) (l : List α) : EndOp α → Option Side
  | .pushBack _ => if s = .front then none else some s
  | .pushFront _ => if s = .back then none else some s
  | .popBack => if s = .front then none else if l.length = 1 then some .back else some s
  | .popFront => if s = .back then none else if l.length = 1 then some .front else some s
  | .clean => if s = .back then none else some .both

/-- The same for a history. -/
def sides : Side → List α → List (EndOp α) → Option Side
  | s, _, [] => some s
  | s, l, o :: os => match side s l o with
    | some s' => sides s' (apply l o.toOp) os
    | none => none

end ListSpec

namespace LL

/-- What a user sees of the list that should hold `l`. -/
structure Front (m : Mem α) (o : Nat) (l : List α) : Prop where
  size : ∀ f, m.fresh < f → LL.size f m o = .ok l.length
  forward : ∀ f, m.fresh < f → toList f m o = .ok l

def Back (m : Mem α) (o : Nat) (l : List α) : Prop := ∀ f, m.fresh < f → toListReverse f m o = .ok l.reverse

/-- Destroying the list is defined and leaves no node. -/
def Destroyed (m : Mem α) (o : Nat) : Prop :=
  ∀ f, m.fresh < f → ∃ m', clean f m o = .ok m' ∧ ∀ n, m'.cell (.node n) = none

/-- The memory behind a list of which the given side can be used. -/
def SInv (s : Side) (m : Mem α) (o : Nat) (es : Entries α) : Prop :=
  match s with
  | .both => LInv m o es ∧ Exact m es
  | .front => FInv m o es
  | .back => BInv m o es

theorem SInv.step {s : Side} {m : Mem α} {o : Nat} {es : Entries α} {l : List α} (h : SInv s m o es) (hl : es.map (·.2) = l)
    (op : EndOp α) (hv : valid l op.toOp) :
    match side s l op with
    | some s' => ∃ m' es', LL.step o m op.toOp = .ok m' ∧ SInv s' m' o es' ∧ es'.map (·.2) = apply l op.toOp
    | none => LL.step o m op.toOp = .ub := by
  subst hl
  cases s with
  | both =>
    obtain ⟨h, hx⟩ := h
    by_cases hs : safe (es.map (·.2)) op.toOp
    · obtain ⟨m', es', a, b, c⟩ := C14_step h rfl op.toOp hs
      have : side .both (es.map (·.2)) op = some .both := by
        cases op with
        | popBack =>
          have h2 : 2 ≤ (es.map (·.2)).length := hs
          simp only [side, reduceCtorEq, if_false]
          rw [if_neg (by omega)]
        | popFront =>
          have h2 : 2 ≤ (es.map (·.2)).length := hs
          simp only [side, reduceCtorEq, if_false]
          rw [if_neg (by omega)]
        | pushBack x => rfl
        | pushFront x => rfl
        | clean => rfl
      rw [this]
      exact ⟨m', es', a, ⟨c.inv, c.exact hx⟩, b⟩
    · cases op with
      | pushBack x => exact absurd trivial hs
      | pushFront x => exact absurd trivial hs
      | clean => exact absurd trivial hs
      | popBack =>
        have h1 : 0 < (es.map (·.2)).length := hv
        have h2 : ¬ 2 ≤ (es.map (·.2)).length := hs
        have h3 : (es.map (·.2)).length = 1 := by omega
        simp only [side, reduceCtorEq, if_false, h3, if_true]
        match es, h3, h, hx with
        | [(n, a)], _, h, hx =>
          obtain ⟨m', p, q⟩ := h.popBack_only hx
          exact ⟨m', [], p, q, rfl⟩
      | popFront =>
        have h1 : 0 < (es.map (·.2)).length := hv
        have h2 : ¬ 2 ≤ (es.map (·.2)).length := hs
        have h3 : (es.map (·.2)).length = 1 := by omega
        simp only [side, reduceCtorEq, if_false, h3, if_true]
        match es, h3, h, hx with
        | [(n, a)], _, h, hx =>
          obtain ⟨m', p, q⟩ := h.popFront_only hx
          exact ⟨m', [], p, q, rfl⟩
  | front =>
    have h : FInv m o es := h
    cases op with
    | pushBack x => exact h.back_ub.1 x
    | popBack => exact h.back_ub.2.1
    | pushFront x =>
      obtain ⟨m', a, b⟩ := h.pushFront x
      exact ⟨m', _, a, b, rfl⟩
    | popFront =>
      have h1 : 0 < (es.map (·.2)).length := hv
      have e : side .front (es.map (·.2)) (.popFront) = some .front := by simp [side]
      rw [e]
      match es, h1, h with
      | (n, a) :: es, _, h =>
        obtain ⟨m', a, b⟩ := h.popFront
        exact ⟨m', _, a, b, rfl⟩
    | clean =>
      obtain ⟨m', a, b, c⟩ := h.clean (f := m.fresh + 2) (by omega)
      exact ⟨m', [], a, ⟨b, c⟩, rfl⟩
  | back =>
    have h : BInv m o es := h
    cases op with
    | pushFront x => exact h.front_ub.1 x
    | popFront => exact h.front_ub.2.1
    | clean => exact (h.front_ub.2.2 (m.fresh + 1)).2.2
    | pushBack x =>
      obtain ⟨m', a, b⟩ := h.pushBack x
      exact ⟨m', _, a, b, by simp [EndOp.toOp, apply]⟩
    | popBack =>
      have h1 : 0 < (es.map (·.2)).length := hv
      have e : side .back (es.map (·.2)) (.popBack) = some .back := by simp [side]
      rw [e]
      rcases snoc_cases es with rfl | ⟨A, ⟨n, a⟩, rfl⟩
      · simp at h1
      · obtain ⟨m', a, b⟩ := h.popBack
        exact ⟨m', _, a, b, by simp [EndOp.toOp, apply]⟩

theorem SInv.hist {o : Nat} : ∀ (ops : List (EndOp α)) {s : Side} {m : Mem α} {es : Entries α} {l : List α}, SInv s m o es → es.map (·.2) = l →
    ValidHist l (ops.map EndOp.toOp) →
    match sides s l ops with
    | some s' => ∃ m' es', runOps (LL.step o) m (ops.map EndOp.toOp) = .ok m' ∧ SInv s' m' o es' ∧
        es'.map (·.2) = ListSpec.run l (ops.map EndOp.toOp)
    | none => runOps (LL.step o) m (ops.map EndOp.toOp) = .ub := by
  intro ops
  induction ops with
  | nil => intro s m es l h hl _; exact ⟨m, es, rfl, h, hl⟩
  | cons op ops ih =>
    intro s m es l h hl hv
    have hst := h.step hl op hv.1
    simp only [sides]
    cases hs : side s l op with
    | none =>
      simp only [hs] at hst ⊢
      simp only [List.map_cons, runOps, hst]
    | some s' =>
      simp only [hs] at hst ⊢
      obtain ⟨m1, es1, a, b, c⟩ := hst
      have := ih b c hv.2
      simp only [List.map_cons, runOps_cons_ok a]
      exact this

theorem SInv.front {s : Side} {m : Mem α} {o : Nat} {es : Entries α} (h : SInv s m o es) (hs : s = .front ∨ s = .both ∧ es ≠ []) :
    Front m o (es.map (·.2)) := by
  rcases hs with rfl | ⟨rfl, hne⟩
  · have h : FInv m o es := h
    exact ⟨fun f hf => by rw [(h.observe hf).1, List.length_map], fun f hf => (h.observe hf).2⟩
  · obtain ⟨h, _⟩ := h
    have hne' : es.map (·.2) ≠ [] := by simpa using hne
    exact ⟨fun f hf => (C14_observe h rfl hne' hf).1, fun f hf => (C14_observe h rfl hne' hf).2.1⟩

theorem SInv.back {s : Side} {m : Mem α} {o : Nat} {es : Entries α} (h : SInv s m o es) (hs : s = .back ∨ s = .both ∧ es ≠ []) :
    Back m o (es.map (·.2)) := by
  rcases hs with rfl | ⟨rfl, hne⟩
  · have h : BInv m o es := h
    exact fun f hf => h.observe hf
  · obtain ⟨h, _⟩ := h
    have hne' : es.map (·.2) ≠ [] := by simpa using hne
    exact fun f hf => (C14_observe h rfl hne' hf).2.2

theorem SInv.destroyed {s : Side} {m : Mem α} {o : Nat} {es : Entries α} (h : SInv s m o es) : Destroyed m o ↔ s ≠ .back := by
  cases s with
  | both =>
    obtain ⟨h, hx⟩ := h
    refine ⟨fun _ => by simp, fun _ f hf => ?_⟩
    obtain ⟨m', a, b⟩ := clean_ok h (f := f) (by have := h.len; omega)
    exact ⟨m', a, fun n => b.exact hx n (by simp)⟩
  | front =>
    have h : FInv m o es := h
    refine ⟨fun _ => by simp, fun _ f hf => ?_⟩
    obtain ⟨m', a, _, c⟩ := h.clean hf
    exact ⟨m', a, fun n => c n (by simp)⟩
  | back =>
    have h : BInv m o es := h
    refine ⟨fun hd => ?_, fun hn => absurd rfl hn⟩
    obtain ⟨m', a, _⟩ := hd (m.fresh + 1) (by omega)
    rw [(h.front_ub.2.2 m.fresh).2.2] at a
    cases a

theorem new_sinv (o : Nat) : SInv .both (construct (emptyMem : Mem α) o) o [] := ⟨construct_ok emptyMem o, new_exact o⟩

end LL

/-- **C181, exactly.** For every history of calls at the ends of a new list that never pops from an empty list: the calls are carried out
exactly as long as the side they need is usable.  Afterwards the contents are right when read from a usable side; reading from the other
side is undefined; and the list can be destroyed, every node being released, exactly if its front is usable. -/
theorem C181_ends_exact (o : Nat) (ops : List (EndOp α)) (hv : ValidHist [] (ops.map EndOp.toOp)) :
    (sides .both [] ops = none → runOps (LL.step o) (construct emptyMem o) (ops.map EndOp.toOp) = .ub) ∧
    ∀ s, sides .both [] ops = some s → ∃ m', runOps (LL.step o) (construct emptyMem o) (ops.map EndOp.toOp) = .ok m' ∧
      (s = .front ∨ s = .both ∧ ListSpec.run [] (ops.map EndOp.toOp) ≠ [] → Front m' o (ListSpec.run [] (ops.map EndOp.toOp))) ∧
      (s = .back ∨ s = .both ∧ ListSpec.run [] (ops.map EndOp.toOp) ≠ [] → Back m' o (ListSpec.run [] (ops.map EndOp.toOp))) ∧
      (s = .front → ∀ f, toListReverse (f + 1) m' o = .ub) ∧
      (s = .back → ∀ f, toList (f + 1) m' o = .ub ∧ LL.size (f + 1) m' o = .ub) ∧
      (Destroyed m' o ↔ s ≠ .back) := by
  have key := SInv.hist (o := o) ops (new_sinv o) rfl hv
  refine ⟨fun hn => ?_, fun s hs => ?_⟩
  · simpa only [List.map_nil, hn] using key
  · simp only [List.map_nil, hs] at key
    obtain ⟨m', es', a, b, c⟩ := key
    have hne : ListSpec.run [] (ops.map EndOp.toOp) ≠ [] → es' ≠ [] := by
      intro h he; rw [he] at c; exact h c.symm
    refine ⟨m', a, ?_, ?_, ?_, ?_, b.destroyed⟩
    · intro h; rw [← c]; exact b.front (h.imp id (fun h => ⟨h.1, hne h.2⟩))
    · intro h; rw [← c]; exact b.back (h.imp id (fun h => ⟨h.1, hne h.2⟩))
    · rintro rfl; exact (show FInv m' o es' from b).back_ub.2.2
    · rintro rfl f; exact ⟨((show BInv m' o es' from b).front_ub.2.2 f).2.1, ((show BInv m' o es' from b).front_ub.2.2 f).1⟩

/-- All three outcomes occur. -/
example : sides .both [] [EndOp.pushBack 1, .popFront, .pushFront 2, .popFront, .clean, .pushBack 3] = some .both ∧
    sides .both [] [EndOp.pushBack 1, .popFront, .pushFront 2] = some .front ∧
    sides .both [] [EndOp.pushFront 1, .popBack, .pushBack 2, .popBack] = some .back ∧
    sides .both [] [EndOp.pushBack 1, .popFront, .pushBack 2] = none := by decide

/-! ### The usual ways to use a list -/

theorem LL.sides_append {s s' : Side} {l : List α} : ∀ {a b : List (EndOp α)}, sides s l a = some s' →
    sides s l (a ++ b) = sides s' (ListSpec.run l (a.map EndOp.toOp)) b := by
  intro a
  induction a generalizing s l with
  | nil => intro b h; simp only [sides, Option.some.injEq] at h; subst h; rfl
  | cons op a ih =>
    intro b h
    simp only [sides, List.cons_append] at h ⊢
    split at h
    · rename_i s1 h1
      simp only [List.map_cons, ListSpec.run]
      exact ih h
    · cases h

/-- **C181 holds for a stack at the front.** Any history of `pushFront` and `popFront` that never pops from an empty list is carried out,
forward iteration then shows the contents — also when they are empty — and destroying the list releases every node. -/
theorem C181_front_stack (o : Nat) (ops : List (EndOp α)) (hv : ValidHist [] (ops.map EndOp.toOp)) (hne : ops ≠ [])
    (hops : ∀ op ∈ ops, op = .popFront ∨ ∃ x, op = .pushFront x) :
    ∃ m', runOps (LL.step o) (construct emptyMem o) (ops.map EndOp.toOp) = .ok m' ∧ Front m' o (ListSpec.run [] (ops.map EndOp.toOp)) ∧
      Destroyed m' o := by
  have gen : ∀ (ops : List (EndOp α)) (s : Side) (l : List α), s ≠ .back → (s = .both → l ≠ []) → ValidHist l (ops.map EndOp.toOp) →
      (∀ op ∈ ops, op = .popFront ∨ ∃ x, op = .pushFront x) →
      ∃ s', sides s l ops = some s' ∧ s' ≠ .back ∧ (s' = .both → ListSpec.run l (ops.map EndOp.toOp) ≠ []) := by
    intro ops
    induction ops with
    | nil => intro s l hs hl _ _; exact ⟨s, rfl, hs, hl⟩
    | cons op ops ih =>
      intro s l hs hl hv hops
      have hrest := fun op h => hops op (List.mem_cons_of_mem _ h)
      rcases hops op (by simp) with rfl | ⟨x, rfl⟩
      · have h1 : 0 < l.length := hv.1
        by_cases h2 : l.length = 1
        · obtain ⟨s', a, b, c⟩ := ih .front (apply l .popFront) (by simp) (by simp) hv.2 hrest
          refine ⟨s', ?_, b, c⟩
          simp only [sides, side, if_neg hs, h2, if_true]
          exact a
        · have h3 : apply l (Op.popFront) ≠ [] := by
            simp only [apply]
            intro h
            have := congrArg List.length h
            simp at this
            omega
          obtain ⟨s', a, b, c⟩ := ih s (apply l .popFront) hs (fun _ => h3) hv.2 hrest
          refine ⟨s', ?_, b, c⟩
          simp only [sides, side, if_neg hs, if_neg h2]
          exact a
      · obtain ⟨s', a, b, c⟩ := ih s (apply l (.pushFront x)) hs (fun _ => by simp [apply]) hv.2 hrest
        refine ⟨s', ?_, b, c⟩
        simp only [sides, side, if_neg hs]
        exact a
  have first : ∃ x rest, ops = .pushFront x :: rest := by
    match ops, hne with
    | op :: rest, _ =>
      rcases hops op (by simp) with rfl | ⟨x, rfl⟩
      · exact absurd hv.1 (by simp [EndOp.toOp, valid])
      · exact ⟨x, rest, rfl⟩
  obtain ⟨x, rest, rfl⟩ := first
  obtain ⟨s, a, b, c⟩ := gen rest .both [x] (by simp) (by simp) hv.2 (fun op h => hops op (List.mem_cons_of_mem _ h))
  obtain ⟨m', p, q, _, _, _, r⟩ := (C181_ends_exact o (.pushFront x :: rest) hv).2 s (by simp only [sides, side, reduceCtorEq, if_false]; exact a)
  refine ⟨m', p, q ?_, r.mpr b⟩
  cases s with
  | both => exact Or.inr ⟨rfl, c rfl⟩
  | front => exact Or.inl rfl
  | back => exact absurd rfl b

example : ValidHist [] ([EndOp.pushFront 1, .popFront, .pushFront 2, .pushFront 3, .popFront, .popFront].map EndOp.toOp) := by
  simp [EndOp.toOp, ValidHist, valid, apply]

/-- **C181 fails for a stack at the back, exactly.** Any history of `pushBack` and `popBack` that never pops from an empty list is carried
out and backward iteration then shows the contents, but the list can be destroyed only if it never was emptied. -/
theorem C181_back_stack_exact (o : Nat) (ops : List (EndOp α)) (hv : ValidHist [] (ops.map EndOp.toOp)) (hne : ops ≠ [])
    (hops : ∀ op ∈ ops, op = .popBack ∨ ∃ x, op = .pushBack x) :
    ∃ m', runOps (LL.step o) (construct emptyMem o) (ops.map EndOp.toOp) = .ok m' ∧ Back m' o (ListSpec.run [] (ops.map EndOp.toOp)) ∧
      (Destroyed m' o ↔ ∀ n, 0 < n → n ≤ ops.length → ListSpec.run [] ((ops.take n).map EndOp.toOp) ≠ []) := by
  have gen : ∀ (ops : List (EndOp α)) (s : Side) (l : List α), s ≠ .front → (s = .both → l ≠ []) → ValidHist l (ops.map EndOp.toOp) →
      (∀ op ∈ ops, op = .popBack ∨ ∃ x, op = .pushBack x) →
      ∃ s', sides s l ops = some s' ∧ s' ≠ .front ∧ (s' = .both → ListSpec.run l (ops.map EndOp.toOp) ≠ []) ∧
        (s' = .both ↔ s = .both ∧ ∀ n ≤ ops.length, ListSpec.run l ((ops.take n).map EndOp.toOp) ≠ []) := by
    intro ops
    induction ops with
    | nil =>
      intro s l hs hl _ _
      refine ⟨s, rfl, hs, hl, fun h => ⟨h, fun n _ => by simpa [ListSpec.run] using hl h⟩, fun h => h.1⟩
    | cons op ops ih =>
      intro s l hs hl hv hops
      have hrest := fun op h => hops op (List.mem_cons_of_mem _ h)
      have split : ∀ s1 : Side, (s1 = s ∨ s1 = .back ∧ apply l op.toOp = []) → (s = .both → l ≠ []) → ∀ s' : Side,
          (s' = .both ↔ s1 = .both ∧ ∀ n ≤ ops.length, ListSpec.run (apply l op.toOp) ((ops.take n).map EndOp.toOp) ≠ []) →
          (s' = .both ↔ s = .both ∧ ∀ n ≤ (op :: ops).length, ListSpec.run l (((op :: ops).take n).map EndOp.toOp) ≠ []) := by
        intro s1 h1 hl s' h
        rw [h]
        constructor
        · rintro ⟨rfl, h2⟩
          have hsb : s = .both := by
            rcases h1 with h1 | h1
            · exact h1.symm
            · exact absurd h1.1 (by simp)
          refine ⟨hsb, fun n hn => ?_⟩
          cases n with
          | zero => simpa [ListSpec.run] using hl hsb
          | succ n => simpa [ListSpec.run] using h2 n (by simpa using hn)
        · rintro ⟨rfl, h2⟩
          have h3 : ∀ n ≤ ops.length, ListSpec.run (apply l op.toOp) ((ops.take n).map EndOp.toOp) ≠ [] := fun n hn => by
            simpa [ListSpec.run] using h2 (n + 1) (by simpa using hn)
          refine ⟨?_, h3⟩
          rcases h1 with h1 | h1
          · exact h1
          · exact absurd h1.2 (by simpa [ListSpec.run] using h3 0 (by omega))
      rcases hops op (by simp) with rfl | ⟨x, rfl⟩
      · have h1 : 0 < l.length := hv.1
        have hlen : (apply l (Op.popBack)).length = l.length - 1 := by simp [apply]
        by_cases h2 : l.length = 1
        · obtain ⟨s', a, b, c, d⟩ := ih .back (apply l .popBack) (by simp) (by simp) hv.2 hrest
          refine ⟨s', ?_, b, c, split .back (Or.inr ⟨rfl, List.eq_nil_of_length_eq_zero (by rw [EndOp.toOp, hlen]; omega)⟩) hl s' d⟩
          simp only [sides, side, if_neg hs, h2, if_true]
          exact a
        · have h3 : apply l (Op.popBack) ≠ [] := by
            intro h
            rw [h] at hlen
            simp at hlen
            omega
          obtain ⟨s', a, b, c, d⟩ := ih s (apply l .popBack) hs (fun _ => h3) hv.2 hrest
          refine ⟨s', ?_, b, c, split s (Or.inl rfl) hl s' d⟩
          simp only [sides, side, if_neg hs, if_neg h2]
          exact a
      · obtain ⟨s', a, b, c, d⟩ := ih s (apply l (.pushBack x)) hs (fun _ => by simp [apply]) hv.2 hrest
        refine ⟨s', ?_, b, c, split s (Or.inl rfl) hl s' d⟩
        simp only [sides, side, if_neg hs]
        exact a
  have first : ∃ x rest, ops = .pushBack x :: rest := by
    match ops, hne with
    | op :: rest, _ =>
      rcases hops op (by simp) with rfl | ⟨x, rfl⟩
      · exact absurd hv.1 (by simp [EndOp.toOp, valid])
      · exact ⟨x, rest, rfl⟩
  obtain ⟨x, rest, rfl⟩ := first
  obtain ⟨s, a, b, c, d⟩ := gen rest .both [x] (by simp) (by simp) hv.2 (fun op h => hops op (List.mem_cons_of_mem _ h))
  obtain ⟨m', p, _, q, _, _, r⟩ := (C181_ends_exact o (.pushBack x :: rest) hv).2 s (by simp only [sides, side, reduceCtorEq, if_false]; exact a)
  refine ⟨m', p, q ?_, r.trans ?_⟩
  · cases s with
    | both => exact Or.inr ⟨rfl, c rfl⟩
    | back => exact Or.inl rfl
    | front => exact absurd rfl b
  · have hsb : s ≠ .back ↔ s = .both := by cases s <;> simp_all
    rw [hsb, d]
    constructor
    · rintro ⟨_, h⟩ n h0 hn
      obtain ⟨k, rfl⟩ : ∃ k, n = k + 1 := ⟨n - 1, by omega⟩
      simpa [ListSpec.run, apply, EndOp.toOp] using h k (by simpa using hn)
    · intro h
      refine ⟨rfl, fun n hn => ?_⟩
      simpa [ListSpec.run, apply, EndOp.toOp] using h (n + 1) (by omega) (by simpa using hn)

example : ValidHist [] ([EndOp.pushBack 1, .pushBack 2, .popBack, .popBack, .pushBack 3].map EndOp.toOp) := by
  simp [EndOp.toOp, ValidHist, valid, apply]

/-- **C181 fails for a queue.** Whatever calls at the ends left a list that is wholly usable with one element: once that element is taken from the
front, the next `pushBack` is undefined, and once it is taken from the back the next `pushFront` is. -/
theorem C181_queue_violated (o : Nat) {ops : List (EndOp α)} (hv : ValidHist [] (ops.map EndOp.toOp)) (hs : sides .both [] ops = some .both) {x : α}
    (h1 : ListSpec.run [] (ops.map EndOp.toOp) = [x]) (y : α) :
    runOps (LL.step o) (construct emptyMem o) ((ops ++ [EndOp.popFront, EndOp.pushBack y]).map EndOp.toOp) = .ub ∧
    runOps (LL.step o) (construct emptyMem o) ((ops ++ [EndOp.popBack, EndOp.pushFront y]).map EndOp.toOp) = .ub := by
  have app : ∀ (l : List α) (a b : List (EndOp α)), ValidHist l (a.map EndOp.toOp) →
      ValidHist (ListSpec.run l (a.map EndOp.toOp)) (b.map EndOp.toOp) → ValidHist l ((a ++ b).map EndOp.toOp) := by
    intro l a
    induction a generalizing l with
    | nil => intro b _ h; exact h
    | cons op a ih => intro b h h'; exact ⟨h.1, ih _ b h.2 h'⟩
  constructor
  · refine (C181_ends_exact o _ (app _ _ _ hv ?_)).1 ?_
    · rw [h1]; simp [EndOp.toOp, ValidHist, valid]
    · rw [sides_append hs, h1]; simp [sides, side]
  · refine (C181_ends_exact o _ (app _ _ _ hv ?_)).1 ?_
    · rw [h1]; simp [EndOp.toOp, ValidHist, valid]
    · rw [sides_append hs, h1]; simp [sides, side]

/-- A queue that ran empty for the first time at its third call. -/
example : ValidHist [] ([EndOp.pushBack 1, .pushBack 2, .popFront].map EndOp.toOp) ∧
    sides .both [] [EndOp.pushBack 1, .pushBack 2, .popFront] = some .both ∧
    ListSpec.run [] ([EndOp.pushBack 1, .pushBack 2, .popFront].map EndOp.toOp) = [2] := by
  refine ⟨by simp [EndOp.toOp, ValidHist, valid, apply], by decide, rfl⟩

/-- **C181 for a queue, exactly.** A history of `pushBack` and `popFront` that never pops from an empty list is carried out, and the list can be
destroyed afterwards, exactly if the queue is not empty before any call but the first; otherwise a call is undefined. -/
theorem C181_queue_exact (o : Nat) (ops : List (EndOp α)) (hv : ValidHist [] (ops.map EndOp.toOp))
    (hops : ∀ op ∈ ops, op = .popFront ∨ ∃ x, op = .pushBack x) :
    ((∃ m', runOps (LL.step o) (construct emptyMem o) (ops.map EndOp.toOp) = .ok m' ∧ Destroyed m' o) ↔
      ∀ n, 0 < n → n < ops.length → ListSpec.run [] ((ops.take n).map EndOp.toOp) ≠ []) ∧
    ((∃ m', runOps (LL.step o) (construct emptyMem o) (ops.map EndOp.toOp) = .ok m') ∨
      runOps (LL.step o) (construct emptyMem o) (ops.map EndOp.toOp) = .ub) := by
  have gen : ∀ (ops : List (EndOp α)) (l : List α), l ≠ [] → ValidHist l (ops.map EndOp.toOp) →
      (∀ op ∈ ops, op = .popFront ∨ ∃ x, op = .pushBack x) →
      ((∃ s', sides .both l ops = some s' ∧ s' ≠ .back) ↔ ∀ n < ops.length, ListSpec.run l ((ops.take n).map EndOp.toOp) ≠ []) := by
    intro ops
    induction ops with
    | nil => intro l _ _ _; exact ⟨fun _ n hn => absurd hn (by simp), fun _ => ⟨.both, rfl, by simp⟩⟩
    | cons op ops ih =>
      intro l hl hv hops
      have hrest := fun op h => hops op (List.mem_cons_of_mem _ h)
      have more : (∀ n < (op :: ops).length, ListSpec.run l (((op :: ops).take n).map EndOp.toOp) ≠ []) ↔
          ∀ n < ops.length, ListSpec.run (apply l op.toOp) ((ops.take n).map EndOp.toOp) ≠ [] := by
        constructor
        · intro h n hn
          simpa [ListSpec.run] using h (n + 1) (by simpa using hn)
        · intro h n hn
          cases n with
          | zero => simpa [ListSpec.run] using hl
          | succ n => simpa [ListSpec.run] using h n (by simpa using hn)
      rw [more]
      rcases hops op (by simp) with rfl | ⟨x, rfl⟩
      · by_cases h2 : l.length = 1
        · have he : apply l (EndOp.popFront : EndOp α).toOp = [] := by
            match l, h2 with
            | [_], _ => rfl
          have hside : side .both l (EndOp.popFront : EndOp α) = some .front := by simp [side, h2]
          simp only [sides, hside, he]
          match ops, hv, hrest with
          | [], _, _ => exact ⟨fun _ n hn => absurd hn (by simp), fun _ => ⟨.front, rfl, by simp⟩⟩
          | op2 :: rest, hv, hrest =>
            have hno : sides .front [] (op2 :: rest) = none := by
              rcases hrest op2 (by simp) with rfl | ⟨x, rfl⟩
              · have : 0 < (apply l (EndOp.popFront : EndOp α).toOp).length := hv.2.1
                rw [he] at this
                exact absurd this (by simp)
              · simp [sides, side]
            rw [hno]
            constructor
            · rintro ⟨s', h, _⟩; cases h
            · intro h; exact absurd (h 0 (by simp)) (by simp [ListSpec.run])
        · have h1 : 0 < l.length := hv.1
          have h3 : apply l (EndOp.popFront : EndOp α).toOp ≠ [] := by
            simp only [EndOp.toOp, apply]
            intro h
            have := congrArg List.length h
            simp at this
            omega
          have hside : side .both l (EndOp.popFront : EndOp α) = some .both := by simp [side, h2]
          simp only [sides, hside]
          exact ih _ h3 hv.2 hrest
      · have hside : side .both l (EndOp.pushBack x) = some .both := by simp [side]
        simp only [sides, hside]
        exact ih _ (by simp [EndOp.toOp, apply]) hv.2 hrest
  have hall : (∃ s', sides .both [] ops = some s' ∧ s' ≠ .back) ↔
      ∀ n, 0 < n → n < ops.length → ListSpec.run [] ((ops.take n).map EndOp.toOp) ≠ [] := by
    match ops, hv, hops with
    | [], _, _ => exact ⟨fun _ n _ hn => absurd hn (by simp), fun _ => ⟨.both, rfl, by simp⟩⟩
    | op :: rest, hv, hops =>
      rcases hops op (by simp) with rfl | ⟨x, rfl⟩
      · exact absurd hv.1 (by simp [EndOp.toOp, valid])
      · have hside : side .both [] (EndOp.pushBack x) = some .both := by simp [side]
        simp only [sides, hside]
        rw [gen rest _ (by simp [EndOp.toOp, apply]) hv.2 (fun op h => hops op (List.mem_cons_of_mem _ h))]
        constructor
        · intro h n h0 hn
          obtain ⟨k, rfl⟩ : ∃ k, n = k + 1 := ⟨n - 1, by omega⟩
          simpa [ListSpec.run] using h k (by simpa using hn)
        · intro h n hn
          simpa [ListSpec.run] using h (n + 1) (by omega) (by simpa using hn)
  have hex := C181_ends_exact o ops hv
  rw [← hall]
  cases hs : sides .both [] ops with
  | none =>
    refine ⟨⟨?_, ?_⟩, Or.inr (hex.1 hs)⟩
    · rintro ⟨m', a, _⟩; rw [hex.1 hs] at a; cases a
    · rintro ⟨s', a, _⟩; cases a
  | some s =>
    obtain ⟨m', a, _, _, _, _, d⟩ := hex.2 s hs
    refine ⟨⟨?_, ?_⟩, Or.inl ⟨m', a⟩⟩
    · rintro ⟨m2, a2, d2⟩
      rw [a] at a2
      cases a2
      exact ⟨s, rfl, d.mp d2⟩
    · rintro ⟨s', hs', hb⟩
      cases hs'
      exact ⟨m', a, d.mpr hb⟩

example : ValidHist [] ([EndOp.pushBack 1, .pushBack 2, .popFront, .pushBack 3, .popFront, .popFront].map EndOp.toOp) := by
  simp [EndOp.toOp, ValidHist, valid, apply]

end Flame
