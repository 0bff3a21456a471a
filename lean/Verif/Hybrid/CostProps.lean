import Verif.Hybrid.Cost
import Verif.Hybrid.Exact

/-!
# C190: a `HybridVector` as a stack
-/

namespace Flame
namespace HCost
open Cost HybSpec HVec
variable {α : Type}

/-- The same call as a step of the sequence the container stands for. -/
def Op.plain : Op α → HybSpec.Op α
  | .push x => .pushBack x
  | .pop => .popBack
  | .erase p => .erase p

theorem pushes_fst {can : Nat → Bool} (f : Nat) (xs : List α) : ∀ v : Vec α,
    (do let r ← pushes can f v xs
        .ok r.1) = Vec.pushBackList can f v xs := by
  induction xs with
  | nil => intro v; rfl
  | cons x xs ih =>
    intro v
    simp only [pushes, Vec.pushBackList]
    rw [← push_fst]
    cases push can f v x with
    | ok r => simp only [Res.ok_bind]; rw [← ih]; cases pushes can f r.1 xs <;> rfl
    | ub => rfl
    | loop => rfl

theorem toVector_fst {can : Nat → Bool} (f : Nat) (s : SVec α) :
    (do let r ← toVector can f s
        .ok r.1) = HVec.toVector can f s := by
  simp only [toVector, HVec.toVector]
  cases s.toList with
  | ok xs => simp only [Res.ok_bind]; rw [← pushes_fst]; cases pushes can f _ xs <;> rfl
  | ub => rfl
  | loop => rfl

theorem toArray_fst (N : Nat) (v : Vec α) :
    (do let r ← toArray N v
        .ok r.1) = HVec.toArray N v := by
  simp only [toArray, HVec.toArray]
  cases v.buf.getRange 0 (if v.size > N then N else v.size) with
  | ok xs => simp only [Res.ok_bind]; cases (SVec.empty N).pushBackList xs <;> rfl
  | ub => rfl
  | loop => rfl

theorem pushArr_fst {can : Nat → Bool} (f : Nat) (s : SVec α) (x : α) :
    (do let r ← pushArr can f s x
        .ok r.1) = HVec.pushBackArr can f s x := by
  simp only [pushArr, HVec.pushBackArr]
  split
  · cases s.pushBack x <;> rfl
  · rw [← toVector_fst]
    cases toVector can f s with
    | ok r => simp only [Res.ok_bind]; rw [← push_fst]; cases push can f r.1 x <;> rfl
    | ub => rfl
    | loop => rfl

/-- **C190, counting changes nothing.**  The counted calls leave the containers the calls themselves leave. -/
theorem C190_same (triv : Bool) (can : Nat → Bool) (N f : Nat) (h : HVec α) (o : Op α) :
    (do let r ← cstep triv can N f h o
        .ok r.1) = HVec.step triv can N f h o.plain := by
  cases o with
  | push x =>
    cases h with
    | unset => exact pushArr_fst f _ x
    | arr s => exact pushArr_fst f s x
    | vec v =>
      simp only [cstep, hpush, Op.plain, HVec.step, HVec.pushBack]
      rw [← push_fst]
      cases push can f v x <;> rfl
  | pop =>
    simp only [cstep, hpop, Op.plain, HVec.step]
    cases HVec.popBack triv h <;> rfl
  | erase p =>
    cases h with
    | unset => rfl
    | arr s =>
      simp only [cstep, herase, Op.plain, HVec.step, HVec.erase]
      cases s.erase triv p with
      | ok t => simp only [Res.ok_bind]; cases shrinkArr t <;> rfl
      | ub => rfl
      | loop => rfl
    | vec v =>
      simp only [cstep, herase, Op.plain, HVec.step, HVec.erase]
      cases v.erase triv p with
      | ok t =>
        simp only [Res.ok_bind, shrinkVec]
        split
        · rw [← toArray_fst]; cases toArray N t <;> rfl
        · rfl
      | ub => rfl
      | loop => rfl

/-- What a call should cost, by the number of elements and where they are. -/
def cost (N n : Nat) : Store → Op α → Work
  | .heap c, .push _ => if n = c then ⟨1, n⟩ else ⟨0, 0⟩
  | _, .push _ => if n < N then ⟨0, 0⟩ else ⟨1, n⟩
  | _, .pop => ⟨0, 0⟩
  | .none, .erase _ => ⟨0, 0⟩
  | .inline, .erase p => ⟨0, n - (p + 1)⟩
  | .heap _, .erase p =>
    let left := if p < n then n - 1 else n
    ⟨0, n - (p + 1) + if left < N then left else 0⟩

/-- The calls the theorems speak of: places inside, and no push into a vector with room for one element only, where pushing never returns (C170). -/
def fine (l : List α) (st : Store) : Op α → Prop
  | .push _ => ¬ stuck l st
  | .pop => True
  | .erase p => p ≤ l.length

theorem pushes_room {can : Nat → Bool} (f : Nat) (xs : List α) : ∀ {v : Vec α} {l : List α}, Vec.Rep v l → l.length + xs.length ≤ v.cap →
    ∃ v', pushes can (f + 2) v xs = .ok (v', ⟨⟨0, 0⟩⟩) := by
  induction xs with
  | nil => intro v l _ _; exact ⟨v, rfl⟩
  | cons x xs ih =>
    intro v l h hle
    have hz := h.2.1
    simp only [List.length_cons] at hle
    have hs : v.size ≠ v.cap := by omega
    obtain ⟨v1, e, hr, hcap, _⟩ := Vec.pushBack_room (can := can) (f := f + 1) h hs x
    have e1 : push can (f + 2) v x = .ok (v1, ⟨⟨0, 0⟩⟩) := by
      simp only [push, ne_eq, hs, not_false_eq_true, if_true]
      simp only [Vec.pushBack, ne_eq, hs, not_false_eq_true, if_true] at e
      cases hcc : v.buf.construct v.size x <;> rw [hcc] at e <;> simp at e ⊢
      exact e
    obtain ⟨v2, e2⟩ := ih hr (by simp only [List.length_append, List.length_cons, List.length_nil]; omega)
    exact ⟨v2, by simp only [pushes, e1, Res.ok_bind, e2]; rfl⟩

theorem toVector_work {can : Nat → Bool} (hcan : ∀ n, can n = true) {s : SVec α} {l : List α} (h : SVec.Rep s l) (f : Nat) :
    ∃ v, toVector can (f + 2) s = .ok (v, ⟨if l.length = 0 then 0 else 1, l.length⟩) ∧ Vec.Rep v l ∧ v.cap = 2 * l.length := by
  have hs := h.size_eq
  have hc : ((Vec.empty : Vec α).reserve can (s.size * 2)).cap = s.size * 2 := by
    rw [Vec.reserve_cap _ (hcan _)]; simp [Vec.empty]
  obtain ⟨v, e, hr, hcap⟩ := toVector_ok hcan h (f + 1)
  obtain ⟨v', e'⟩ := pushes_room (can := can) f l (Vec.reserve_rep (can := can) (Vec.rep_empty (α := α)) (s.size * 2))
    (by rw [hc]; simp; omega)
  have hcount : toVector can (f + 2) s = .ok (v', ⟨if l.length = 0 then 0 else 1, l.length⟩) := by
    simp only [toVector, SVec.rep_toList h, Res.ok_bind, e']
    have : (Vec.empty : Vec α).cap = 0 := rfl
    have hz : (Vec.empty : Vec α).size = 0 := rfl
    unfold reserveWork
    rw [this, hz, hs]
    by_cases h0 : l.length = 0
    · simp [h0, Work.add]
    · rw [if_pos (by omega), if_neg h0]; simp [Work.add]
  have hf := toVector_fst (can := can) (f + 2) s
  rw [hcount, e] at hf
  simp only [Res.ok_bind, Res.ok.injEq] at hf
  exact ⟨v', hcount, hf ▸ hr, hf ▸ hcap⟩

theorem pushArr_work {can : Nat → Bool} (hcan : ∀ n, can n = true) {N : Nat} {s : SVec α} {l : List α} (h : SVec.Rep s l) (hc : s.cap = N)
    (x : α) (f : Nat) : ∃ h', pushArr can (f + 3) s x = .ok (h', if l.length < N then ⟨0, 0⟩ else ⟨1, l.length⟩) := by
  have hs := h.size_eq
  unfold pushArr
  by_cases h0 : l.length < N
  · rw [if_pos (by omega), if_pos h0]
    obtain ⟨s', a, _, _⟩ := SVec.pushBack_ok h x
    exact ⟨.arr s', by rw [a]; rfl⟩
  · rw [if_neg (by omega), if_neg h0]
    obtain ⟨v, a, b, c⟩ := toVector_work hcan h (f + 1)
    have hz := b.2.1
    obtain ⟨v', w, e, _, hroom, hfull⟩ := push_ok hcan b (by omega) x (f + 1)
    refine ⟨.vec v', ?_⟩
    rw [a]
    simp only [Res.ok_bind, e]
    by_cases hn : l.length = 0
    · obtain ⟨_, rfl⟩ := hfull (by omega)
      simp [hn, Work.add, hz]
    · obtain ⟨_, rfl⟩ := hroom (by omega)
      simp [hn, Work.add]

/-- **C190, exactly, for one call.**  From any container a history can reach: the sequence, the place of its elements and the work. -/
theorem C190_step_exact {triv : Bool} {can : Nat → Bool} (hcan : ∀ n, can n = true) {N : Nat} {st : Store} {h : HVec α} {l : List α}
    (hr : Stored N l st h) (o : Op α) (hv : fine l st o) (f : Nat) :
    ∃ h', cstep triv can N (f + 3) h o = .ok (h', cost N l.length st o) ∧ Stored N (apply l o.plain) (next N l st o.plain) h' := by
  have hval : valid l o.plain := by cases o <;> first | trivial | exact hv
  have hgood : good triv N l st o.plain := by cases o <;> first | trivial | exact hv
  obtain ⟨h', e, hs⟩ := step_good (triv := triv) hcan hr o.plain hval hgood f
  have hf := C190_same triv can N (f + 3) h o
  rw [e] at hf
  have hE : (SVec.empty N : SVec α).cap = N := by simp [SVec.cap, SVec.empty]
  have key : ∃ h2, cstep triv can N (f + 3) h o = .ok (h2, cost N l.length st o) := by
    cases o with
    | push x =>
      cases st with
      | none => obtain ⟨rfl, rfl⟩ := hr; exact pushArr_work hcan (SVec.rep_empty N) hE x f
      | inline => obtain ⟨s, rfl, a, b⟩ := hr; exact pushArr_work hcan a b x f
      | heap c =>
        obtain ⟨v, rfl, a, b⟩ := hr
        have hz := a.2.1
        replace hv : ¬ (l.length = 1 ∧ c = 1) := hv
        by_cases h1 : v.cap = 1
        · have hroom : v.size ≠ v.cap := by omega
          obtain ⟨v', e'⟩ : ∃ v', push can (f + 3) v x = .ok (v', ⟨⟨0, 0⟩⟩) := by
            obtain ⟨v1, e, _, _, _⟩ := Vec.pushBack_room (can := can) (f := f + 2) a hroom x
            refine ⟨v1, ?_⟩
            simp only [push, ne_eq, hroom, not_false_eq_true, if_true]
            simp only [Vec.pushBack, ne_eq, hroom, not_false_eq_true, if_true] at e
            cases hcc : v.buf.construct v.size x <;> rw [hcc] at e <;> simp at e ⊢
            exact e
          refine ⟨.vec v', ?_⟩
          simp only [cstep, hpush, e', Res.ok_bind, cost]
          rw [if_neg (by omega)]
        · obtain ⟨v', w, e', _, hroom, hfull⟩ := push_ok hcan a h1 x (f + 1)
          refine ⟨.vec v', ?_⟩
          simp only [cstep, hpush, e', Res.ok_bind, cost]
          by_cases hn : l.length = c
          · obtain ⟨_, rfl⟩ := hfull (by omega)
            rw [if_pos hn, hz]
          · obtain ⟨_, rfl⟩ := hroom (by omega)
            rw [if_neg hn]
    | pop =>
      replace e : HVec.popBack triv h = .ok h' := e
      refine ⟨h', ?_⟩
      simp only [cstep, hpop, e, Res.ok_bind, cost]
    | erase p =>
      replace hv : p ≤ l.length := hv
      cases st with
      | none => obtain ⟨rfl, rfl⟩ := hr; exact ⟨.unset, rfl⟩
      | inline =>
        obtain ⟨s, rfl, a, b⟩ := hr
        obtain ⟨s', a', b', c'⟩ := SVec.erase_ok (triv := triv) a hv
        obtain ⟨h2, a2, _⟩ := shrinkArr_at (N := N) b' (by omega)
        exact ⟨h2, by simp only [cstep, herase, a', Res.ok_bind, a2, cost, a.size_eq]⟩
      | heap c =>
        obtain ⟨v, rfl, a, b⟩ := hr
        have hz := a.2.1
        obtain ⟨v', a', b', c', _⟩ := Vec.erase_ok (triv := triv) a (p := p) (by omega)
        have hz' : v'.size = (if p < l.length then l.length - 1 else l.length) := by
          rw [b'.2.1]; simp only [List.length_append, List.length_take, List.length_drop]; split <;> omega
        by_cases hlt : v'.size < N
        · have h1 := (rep_observe b').1
          simp only [Vec.toList] at h1
          obtain ⟨s, a3, b3, c3⟩ := SVec.pushBackList_ok (SVec.rep_empty (α := α) N) (l.take p ++ l.drop (p + 1))
          have ht : toArray N v' = .ok (s, ⟨0, v'.size⟩) := by
            simp only [toArray]
            rw [if_neg (by omega), h1]
            simp only [Res.ok_bind, a3, b'.2.1]
          refine ⟨.arr s, ?_⟩
          simp only [cstep, herase, a', Res.ok_bind, hlt, if_true, ht, cost, Work.add, hz]
          rw [← hz', if_pos hlt]
        · refine ⟨.vec v', ?_⟩
          simp only [cstep, herase, a', Res.ok_bind, hlt, if_false, cost, hz]
          rw [← hz', if_neg hlt]; rfl
  obtain ⟨h2, e2⟩ := key
  rw [e2] at hf
  simp only [Res.ok_bind, Res.ok.injEq] at hf
  exact ⟨h2, e2, hf ▸ hs⟩

/-- The elements pushed by a history. -/
def pushed : List (Op α) → Nat
  | [] => 0
  | .push _ :: os => pushed os + 1
  | _ :: os => pushed os

/-- Pushes and pops only. -/
def stackOnly : List (Op α) → Prop
  | [] => True
  | .erase _ :: _ => False
  | _ :: os => stackOnly os

/-- The block a container of `N` inline elements asks for first. -/
def block (N : Nat) : Nat := if N = 0 then 8 else 2 * N

/-- What a stack has cost so far, after `p` pushes. -/
def Spent (N p : Nat) (l : List α) : Store → Nat → Prop
  | .heap c, t => N < p ∧ block N ≤ c ∧ t + 4 * block N ≤ 4 * c + N ∧ (c = block N ∨ 2 * c ≤ 3 * p) ∧ l.length ≤ c
  | _, t => t = 0

theorem stack_aux {triv : Bool} {can : Nat → Bool} (hcan : ∀ n, can n = true) {N : Nat} (f : Nat) (ops : List (Op α)) :
    ∀ {st : Store} {h : HVec α} {l : List α} {p t : Nat}, stackOnly ops → Stored N l st h → l.length ≤ p → Spent N p l st t →
    ∃ h' w st', crun triv can N (f + 3) h ops = .ok (h', w) ∧ Stored N (HybSpec.run l (ops.map Op.plain)) st' h' ∧
      Spent N (p + pushed ops) (HybSpec.run l (ops.map Op.plain)) st' (t + w.carried) := by
  induction ops with
  | nil => intro st h l p t _ hr _ hs; exact ⟨h, ⟨0, 0⟩, st, rfl, hr, hs⟩
  | cons o os ih =>
    intro st h l p t hso hr hlp hs
    have hb : 2 ≤ block N := by unfold block; split <;> omega
    have hN : (st = .none → l.length = 0) ∧ (st = .inline → l.length ≤ N) := by
      refine ⟨fun e => ?_, fun e => ?_⟩ <;> subst e
      · obtain ⟨_, rfl⟩ := hr; rfl
      · obtain ⟨s, _, a, b⟩ := hr; have := a.size_le; omega
    have hfine : fine l st o := by
      cases o with
      | push x =>
        cases st with
        | heap c => intro ⟨_, hc⟩; have := hs.2.1; omega
        | none => exact id
        | inline => exact id
      | pop => trivial
      | erase p => exact hso.elim
    obtain ⟨h1, e1, hr1⟩ := C190_step_exact (triv := triv) hcan hr o hfine f
    have hso' : stackOnly os := by cases o <;> first | exact hso | exact hso.elim
    have hs1 : Spent N (p + pushed [o]) (apply l o.plain) (next N l st o.plain) (t + (cost N l.length st o).carried) ∧
        (apply l o.plain).length ≤ p + pushed [o] := by
      cases o with
      | erase p => exact hso.elim
      | pop =>
        have hlen : (apply l (Op.plain (.pop : Op α))).length ≤ l.length := by simp [Op.plain, apply]
        refine ⟨?_, by simp only [pushed]; omega⟩
        cases st with
        | none => exact hs
        | inline => exact hs
        | heap c =>
          obtain ⟨a, b, d, e, g⟩ := hs
          exact ⟨a, b, d, e, by omega⟩
      | push x =>
        have hlen : (apply l (Op.plain (.push x))).length = l.length + 1 := by simp [Op.plain, apply]
        refine ⟨?_, by simp only [pushed]; omega⟩
        have arr : ∀ {q : Store}, q ≠ .heap 0 → l.length ≤ N → t = 0 → more N l.length .inline = q →
            Spent N (p + 1) (apply l (Op.plain (.push x))) q (t + (if l.length < N then (⟨0, 0⟩ : Work) else ⟨1, l.length⟩).carried) := by
          intro q hq hle h0 hm
          simp only [more] at hm
          by_cases hlt : l.length < N
          · rw [if_pos hlt] at hm; subst hm; rw [if_pos hlt]; exact h0
          · rw [if_neg hlt] at hm; subst hm; rw [if_neg hlt]
            have hnn : l.length = N := by omega
            have hg : grow (2 * l.length) l.length = block N := by
              unfold grow block; rw [hnn]; split <;> split <;> first | omega | (split <;> omega)
            rw [hg]
            refine ⟨by omega, Nat.le_refl _, ?_, Or.inl rfl, ?_⟩
            · simp only; omega
            · rw [hlen, hnn]; unfold block; split <;> omega
        have hg0 : more N l.length .inline ≠ .heap 0 := by
          simp only [more]
          split
          · simp
          · intro e
            injection e with e
            unfold grow at e
            split at e
            · split at e <;> omega
            · omega
        cases st with
        | none => exact arr hg0 (by have := hN.1 rfl; omega) hs rfl
        | inline => exact arr hg0 (hN.2 rfl) hs rfl
        | heap c =>
          obtain ⟨a, b, d, e, g⟩ := hs
          have hm : next N l (.heap c) (Op.plain (.push x)) = .heap (grow c l.length) := rfl
          rw [hm]
          by_cases hc : l.length = c
          · have hgr : grow c l.length = c * 3 / 2 := by unfold grow; rw [if_pos hc, if_neg (by omega)]
            rw [hgr]
            simp only [cost, if_pos hc]
            refine ⟨by simp only [pushed]; omega, by omega, by omega, Or.inr (by simp only [pushed]; omega), by omega⟩
          · have hgr : grow c l.length = c := by unfold grow; rw [if_neg hc]
            rw [hgr]
            simp only [cost, if_neg hc]
            refine ⟨by simp only [pushed]; omega, b, by omega, ?_, by omega⟩
            rcases e with e | e
            · exact Or.inl e
            · exact Or.inr (by simp only [pushed]; omega)
    obtain ⟨h2, w, st', e2, hr2, hs2⟩ := ih hso' hr1 hs1.2 hs1.1
    refine ⟨h2, (cost N l.length st o).add w, st', by simp only [crun, e1, Res.ok_bind, e2], hr2, ?_⟩
    have hp : p + pushed [o] + pushed os = p + pushed (o :: os) := by
      cases o <;> simp only [pushed] <;> omega
    rw [hp] at hs2
    rw [Nat.add_assoc] at hs2
    exact hs2

theorem inline_aux {triv : Bool} {can : Nat → Bool} (hcan : ∀ n, can n = true) {N : Nat} (f : Nat) (ops : List (Op α)) :
    ∀ {st : Store} {h : HVec α} {l : List α}, stackOnly ops → Stored N l st h → (st = .none ∨ st = .inline) → l.length + pushed ops ≤ N →
    ∃ h', crun triv can N (f + 3) h ops = .ok (h', ⟨0, 0⟩) := by
  induction ops with
  | nil => intro st h l _ _ _ _; exact ⟨h, rfl⟩
  | cons o os ih =>
    intro st h l hso hr hst hle
    have hfine : fine l st o := by
      cases o with
      | push x => rcases hst with rfl | rfl <;> exact id
      | pop => trivial
      | erase p => exact hso.elim
    obtain ⟨h1, e1, hr1⟩ := C190_step_exact (triv := triv) hcan hr o hfine f
    have hso' : stackOnly os := by cases o <;> first | exact hso | exact hso.elim
    have main : (next N l st o.plain = .none ∨ next N l st o.plain = .inline) ∧ (apply l o.plain).length + pushed os ≤ N ∧
        cost N l.length st o = ⟨0, 0⟩ := by
      cases o with
      | erase p => exact hso.elim
      | pop =>
        simp only [pushed] at hle
        refine ⟨hst, ?_, by rcases hst with rfl | rfl <;> rfl⟩
        simp only [Op.plain, apply, List.length_dropLast]; omega
      | push x =>
        simp only [pushed] at hle
        have hlt : l.length < N := by omega
        refine ⟨Or.inr ?_, ?_, ?_⟩
        · rcases hst with rfl | rfl <;> simp only [Op.plain, next, more, hlt, if_true]
        · simp only [Op.plain, apply, List.length_append, List.length_cons, List.length_nil]; omega
        · rcases hst with rfl | rfl <;> simp only [cost, hlt, if_true]
    obtain ⟨m1, m2, m3⟩ := main
    obtain ⟨h2, e2⟩ := ih hso' hr1 m1 m2
    rw [m3] at e1
    exact ⟨h2, by simp only [crun, e1, Res.ok_bind, e2]; rfl⟩

/-- **C190, pushing and popping.**  A container used with `pushBack` and `popBack` only, in any order, from the default-constructed state: the elements
carried from place to place over the whole history are at most seven times the elements pushed, and up to `N` pushes nothing is carried and the allocator
is not asked. -/
theorem C190_stack_partial (triv : Bool) {can : Nat → Bool} (hcan : ∀ n, can n = true) (N f : Nat) (ops : List (Op α)) (ho : stackOnly ops) :
    ∃ h' w, crun triv can N (f + 3) (.unset : HVec α) ops = .ok (h', w) ∧ Holds N h' (HybSpec.run [] (ops.map Op.plain)) ∧
      w.carried ≤ 7 * pushed ops ∧ (pushed ops ≤ N → w = ⟨0, 0⟩) := by
  obtain ⟨h', w, st', e, hr, hs⟩ := stack_aux (triv := triv) hcan f ops (st := .none) (h := .unset) (l := []) (p := 0) (t := 0) ho ⟨rfl, rfl⟩
    (Nat.le_refl _) rfl
  refine ⟨h', w, e, hr.holds, ?_, fun hle => ?_⟩
  rotate_left
  · obtain ⟨h2, e2⟩ := inline_aux (triv := triv) hcan f ops (st := .none) (h := .unset) (l := []) ho ⟨rfl, rfl⟩ (Or.inl rfl) (by simpa using hle)
    rw [e2] at e
    injection e with e
    exact (Prod.mk.inj e).2.symm
  cases st' with
  | none => have : 0 + w.carried = 0 := hs; omega
  | inline => have : 0 + w.carried = 0 := hs; omega
  | heap c => obtain ⟨a, b, d, g, _⟩ := hs; omega

example : stackOnly ([.push 1, .push 2, .pop, .pop, .pop, .push 3, .push 4, .push 5] : List (Op Nat)) := by simp [stackOnly]
example : crun true (fun _ => true) 2 9 (.unset : HVec Nat) [.push 1, .push 2, .push 3, .pop, .push 4, .push 5, .push 6] =
    .ok (.vec ⟨[.live 1, .live 2, .live 4, .live 5, .live 6, .raw], 6, 5⟩, ⟨2, 6⟩) := by decide

/-- The same four calls over and over. -/
def rounds (r : List (Op α)) : Nat → List (Op α)
  | 0 => []
  | k + 1 => r ++ rounds r k

theorem crun_append {triv : Bool} {can : Nat → Bool} {N f : Nat} {a b : List (Op α)} : ∀ {h h1 h2 : HVec α} {w1 w2 : Work},
    crun triv can N f h a = .ok (h1, w1) → crun triv can N f h1 b = .ok (h2, w2) → crun triv can N f h (a ++ b) = .ok (h2, w1.add w2) := by
  induction a with
  | nil => intro h h1 h2 w1 w2 e1 e2; cases e1; simp [e2, Work.add]
  | cons o os ih =>
    intro h h1 h2 w1 w2 e1 e2
    simp only [crun, List.cons_append] at e1 ⊢
    cases hc : cstep triv can N f h o with
    | ok r =>
      rw [hc] at e1
      simp only [Res.ok_bind] at e1 ⊢
      cases hq : crun triv can N f r.1 os with
      | ok q =>
        rw [hq] at e1
        simp only [Res.ok_bind, Res.ok.injEq, Prod.mk.injEq] at e1
        obtain ⟨ea, eb⟩ := e1
        have := ih (h2 := h2) (w2 := w2) hq (by rw [ea]; exact e2)
        rw [this]
        simp only [Res.ok_bind, ← eb, Work.add, Nat.add_assoc]
      | ub => rw [hq] at e1; cases e1
      | loop => rw [hq] at e1; cases e1
    | ub => rw [hc] at e1; cases e1
    | loop => rw [hc] at e1; cases e1

/-- One more and two fewer, taken out by place, then one more: out to the heap and back again. -/
theorem round_erase {triv : Bool} {can : Nat → Bool} (hcan : ∀ n, can n = true) {N : Nat} (hN : 0 < N) {h : HVec α} {l : List α}
    (hl : l.length = N) (hr : Stored N l .inline h) (x y : α) (f : Nat) :
    ∃ h', crun triv can N (f + 3) h [.push x, .erase N, .erase (N - 1), .push y] = .ok (h', ⟨1, 2 * N - 1⟩) ∧
      Stored N (l.dropLast ++ [y]) .inline h' := by
  obtain ⟨h1, e1, r1⟩ := C190_step_exact (triv := triv) hcan hr (.push x) id f
  have s1 : next N l .inline (Op.plain (.push x)) = .heap (2 * N) := by
    simp only [Op.plain, next, more, hl, Nat.lt_irrefl, if_false, grow]
    rw [if_neg (by omega)]
  have l1 : apply l (Op.plain (.push x)) = l ++ [x] := rfl
  have c1 : cost N l.length .inline (.push x) = ⟨1, N⟩ := by simp [cost, hl]
  rw [s1, l1] at r1
  rw [c1] at e1
  obtain ⟨h2, e2, r2⟩ := C190_step_exact (triv := triv) hcan r1 (.erase N) (by simp [fine]; omega) f
  have hlen : (l ++ [x]).length = N + 1 := by simp [hl]
  have l2 : apply (l ++ [x]) (Op.plain (.erase N)) = l := by
    simp only [Op.plain, apply]
    rw [List.drop_of_length_le (by simp; omega), List.take_append_of_le_length (by omega), List.take_of_length_le (by omega), List.append_nil]
  have s2 : next N (l ++ [x]) (.heap (2 * N)) (Op.plain (.erase N)) = .heap (2 * N) := by
    have : next N (l ++ [x]) (.heap (2 * N)) (Op.plain (.erase N)) = shrink N (apply (l ++ [x]) (Op.plain (.erase N))).length (.heap (2 * N)) := rfl
    rw [this, l2]; simp [shrink, hl]
  have c2 : cost N (l ++ [x]).length (.heap (2 * N)) (.erase N : Op α) = ⟨0, 0⟩ := by simp [cost, hlen]
  rw [s2, l2] at r2
  rw [c2] at e2
  obtain ⟨h3, e3, r3⟩ := C190_step_exact (triv := triv) hcan r2 (.erase (N - 1)) (by simp [fine]; omega) f
  have l3 : apply l (Op.plain (.erase (N - 1))) = l.dropLast := by
    simp only [Op.plain, apply]
    rw [List.drop_of_length_le (by omega), List.append_nil, List.dropLast_eq_take, hl]
  have s3 : next N l (.heap (2 * N)) (Op.plain (.erase (N - 1))) = .inline := by
    have : next N l (.heap (2 * N)) (Op.plain (.erase (N - 1))) = shrink N (apply l (Op.plain (.erase (N - 1)))).length (.heap (2 * N)) := rfl
    rw [this, l3]; simp only [shrink, List.length_dropLast, hl]; rw [if_pos (by omega)]
  have c3 : cost N l.length (.heap (2 * N)) (.erase (N - 1) : Op α) = ⟨0, N - 1⟩ := by
    have hp : (if N - 1 < N then N - 1 else N) = N - 1 := by rw [if_pos (by omega)]
    simp only [cost, hl, hp]
    rw [if_pos (by omega)]; congr 1; omega
  rw [s3, l3] at r3
  rw [c3] at e3
  obtain ⟨h4, e4, r4⟩ := C190_step_exact (triv := triv) hcan r3 (.push y) id f
  have hlen3 : l.dropLast.length = N - 1 := by simp [hl]
  have s4 : next N l.dropLast .inline (Op.plain (.push y)) = .inline := by
    simp only [Op.plain, next, more, hlen3]; rw [if_pos (by omega)]
  have c4 : cost N l.dropLast.length .inline (.push y) = ⟨0, 0⟩ := by
    simp only [cost, hlen3]; rw [if_pos (by omega)]
  rw [s4] at r4
  rw [c4] at e4
  refine ⟨h4, ?_, r4⟩
  simp only [crun, e1, e2, e3, e4, Res.ok_bind, Work.add]
  congr 3; omega

/-- **C190 violated for `erase`.**  A container whose array is full, of any capacity: pushing one, erasing the last twice and pushing one, over and over, asks the
allocator for a block and carries `2N - 1` elements every round, although only the last two places ever change.  -/
theorem C190_erase_violated (triv : Bool) {can : Nat → Bool} (hcan : ∀ n, can n = true) {N : Nat} (hN : 0 < N) (x y : α) (f k : Nat) :
    ∀ {h : HVec α} {l : List α}, l.length = N → Stored N l .inline h →
    ∃ h', crun triv can N (f + 3) h (rounds [.push x, .erase N, .erase (N - 1), .push y] k) = .ok (h', ⟨k, k * (2 * N - 1)⟩) := by
  induction k with
  | zero => intro h l _ _; exact ⟨h, by simp [rounds, crun]⟩
  | succ k ih =>
    intro h l hl hr
    obtain ⟨h1, e1, r1⟩ := round_erase (triv := triv) hcan hN hl hr x y f
    obtain ⟨h2, e2⟩ := ih (by simp [hl]; omega) r1
    refine ⟨h2, ?_⟩
    rw [rounds, crun_append e1 e2]
    simp only [Work.add]
    rw [Nat.add_one_mul k, Nat.add_comm 1 k, Nat.add_comm (2 * N - 1) (k * (2 * N - 1))]

/-- One more and two fewer, popped, then one more, on the heap: nothing is carried. -/
theorem round_pop {triv : Bool} {can : Nat → Bool} (hcan : ∀ n, can n = true) {N : Nat} (hN : 0 < N) {h : HVec α} {l : List α} {st : Store}
    (hl : l.length = N) (hst : st = .inline ∨ st = .heap (2 * N)) (hr : Stored N l st h) (x y : α) (f : Nat) :
    ∃ h', crun triv can N (f + 3) h [.push x, .pop, .pop, .push y] = .ok (h', if st = .inline then ⟨1, N⟩ else ⟨0, 0⟩) ∧
      Stored N (l.dropLast ++ [y]) (.heap (2 * N)) h' := by
  have hfx : fine l st (.push x) := by
    rcases hst with rfl | rfl
    · exact id
    · intro ⟨_, hc⟩; omega
  obtain ⟨h1, e1, r1⟩ := C190_step_exact (triv := triv) hcan hr (.push x) hfx f
  have s1 : next N l st (Op.plain (.push x)) = .heap (2 * N) := by
    rcases hst with rfl | rfl
    · simp only [Op.plain, next, more, hl, Nat.lt_irrefl, if_false, grow]
      rw [if_neg (by omega)]
    · simp only [Op.plain, next, more, hl, grow]
      rw [if_neg (by omega)]
  have c1 : cost N l.length st (.push x) = if st = .inline then ⟨1, N⟩ else ⟨0, 0⟩ := by
    rcases hst with rfl | rfl
    · simp [cost, hl]
    · simp only [cost, hl]; rw [if_neg (by omega)]; simp
  have l1 : apply l (Op.plain (.push x)) = l ++ [x] := rfl
  rw [s1, l1] at r1
  rw [c1] at e1
  obtain ⟨h2, e2, r2⟩ := C190_step_exact (triv := triv) hcan r1 .pop trivial f
  obtain ⟨h3, e3, r3⟩ := C190_step_exact (triv := triv) hcan r2 .pop trivial f
  have l3 : apply (apply (l ++ [x]) (Op.plain (.pop : Op α))) (Op.plain (.pop : Op α)) = l.dropLast := by
    simp [Op.plain, apply]
  have s3 : next N (apply (l ++ [x]) (Op.plain (.pop : Op α))) (next N (l ++ [x]) (.heap (2 * N)) (Op.plain (.pop : Op α))) (Op.plain (.pop : Op α)) =
      .heap (2 * N) := rfl
  rw [l3, s3] at r3
  have hlen3 : l.dropLast.length = N - 1 := by simp [hl]
  have hfy : fine l.dropLast (.heap (2 * N)) (.push y) := by intro ⟨_, hc⟩; omega
  obtain ⟨h4, e4, r4⟩ := C190_step_exact (triv := triv) hcan r3 (.push y) hfy f
  have s4 : next N l.dropLast (.heap (2 * N)) (Op.plain (.push y)) = .heap (2 * N) := by
    simp only [Op.plain, next, more, hlen3, grow]; rw [if_neg (by omega)]
  have c4 : cost N l.dropLast.length (.heap (2 * N)) (.push y) = ⟨0, 0⟩ := by
    simp only [cost, hlen3]; rw [if_neg (by omega)]
  rw [s4] at r4
  rw [c4] at e4
  refine ⟨h4, ?_, r4⟩
  simp only [crun, e1, e2, e3, e4, Res.ok_bind, Work.add, cost]
  split <;> rfl

/-- **C190, the same with `popBack`.**  The same rounds with the last element popped instead of erased: one block and `N` elements carried, in the first round,
however many rounds follow. -/
theorem C190_pop_rounds (triv : Bool) {can : Nat → Bool} (hcan : ∀ n, can n = true) {N : Nat} (hN : 0 < N) (x y : α) (f k : Nat)
    {h : HVec α} {l : List α} (hl : l.length = N) (hr : Stored N l .inline h) :
    ∃ h', crun triv can N (f + 3) h (rounds [.push x, .pop, .pop, .push y] (k + 1)) = .ok (h', ⟨1, N⟩) := by
  have later : ∀ (k : Nat) {h : HVec α} {l : List α}, l.length = N → Stored N l (.heap (2 * N)) h →
      ∃ h', crun triv can N (f + 3) h (rounds [.push x, .pop, .pop, .push y] k) = .ok (h', ⟨0, 0⟩) := by
    intro k
    induction k with
    | zero => intro h l _ _; exact ⟨h, rfl⟩
    | succ k ih =>
      intro h l hl hr
      obtain ⟨h1, e1, r1⟩ := round_pop (triv := triv) hcan hN hl (Or.inr rfl) hr x y f
      obtain ⟨h2, e2⟩ := ih (by simp [hl]; omega) r1
      exact ⟨h2, by rw [rounds, crun_append e1 e2]; rfl⟩
  obtain ⟨h1, e1, r1⟩ := round_pop (triv := triv) hcan hN hl (Or.inl rfl) hr x y f
  obtain ⟨h2, e2⟩ := later k (by simp [hl]; omega) r1
  exact ⟨h2, by rw [rounds, crun_append e1 e2]; rfl⟩

/-- A full array of three. -/
example : Stored 3 [1, 2, 3] .inline (.arr ⟨[.live 1, .live 2, .live 3], 3⟩ : HVec Nat) := ⟨_, rfl, ⟨rfl, rfl, [], rfl⟩, rfl⟩
example : crun true (fun _ => true) 3 9 (.arr ⟨[.live 1, .live 2, .live 3], 3⟩ : HVec Nat) (rounds [.push 7, .erase 3, .erase 2, .push 8] 10) =
    .ok (.arr ⟨[.live 1, .live 2, .live 8], 3⟩, ⟨10, 50⟩) := by decide

namespace Flame
namespace HCost
open Cost HybSpec HVec
example := C190_same true (fun _ => true) 3 9 (.arr ⟨[.live 1, .live 2, .live 3], 3⟩ : HVec Nat) (.push 4)
example := C190_step_exact (triv := true) (can := fun _ => true) (fun _ => rfl) (N := 3) (st := .inline)
  (h := (.arr ⟨[.live 1, .live 2, .live 3], 3⟩ : HVec Nat)) (l := [1, 2, 3]) ⟨_, rfl, ⟨rfl, rfl, [], rfl⟩, rfl⟩ (.push 4) (by simp [fine, stuck]) 4
example := C190_erase_violated true (can := fun _ => true) (fun _ => rfl) (N := 3) (by decide) 7 8 4 10
  (h := (.arr ⟨[.live 1, .live 2, .live 3], 3⟩ : HVec Nat)) (l := [1, 2, 3]) rfl ⟨_, rfl, ⟨rfl, rfl, [], rfl⟩, rfl⟩
end HCost
end Flame

end HCost
end Flame
