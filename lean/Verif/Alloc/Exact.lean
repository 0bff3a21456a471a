import Verif.Alloc.Props

/-!
# C99, C100, exactly

All histories of `construct` and `destroy` that are defined, including those that hand an array back with too small a count.
-/

namespace Flame.Alloc
open Flame.Own

variable {V A : Type}

/-- Specification: when a call is defined; `l` are the arrays the client has. -/
def Allowed (sz : Nat) (l : List (Nat × List V)) : Op A → Prop
  | .construct mem n _ => mem = true → sz * n < 2 ^ 64
  | .destroy none n => n = 0
  | .destroy (some p) n => ∃ vs, l.lookup p = some vs ∧ n ≤ vs.length

/-- Specification: the objects of an array that are not destroyed although its block is released. -/
def forgotten (l : List (Nat × List V)) : Op A → Nat
  | .destroy (some p) n => match l.lookup p with
    | some vs => vs.length - n
    | none => 0
  | _ => 0

/-- Histories of calls that go through, with the arrays the client then has and the number of objects that were never destroyed. -/
inductive Hist (sz : Nat) (mk : A → V × A) : Heap V → List (Nat × List V) → Nat → Prop where
  | start : Hist sz mk Heap.empty [] 0
  | step {h h' l k op} : Hist sz mk h l k → step sz mk h op = .ok h' → Hist sz mk h' (spec mk h.next l op) (k + forgotten l op)

/-- The heap contains exactly the arrays of `l`; `k` objects were lost. -/
structure HoldsBut (sz : Nat) (h : Heap V) (l : List (Nat × List V)) (k : Nat) : Prop where
  blocks : ∀ p, h.blk p = (l.lookup p).map (arrayBlock sz)
  fresh : ∀ q ∈ l, q.1 < h.next
  once : (l.map (·.1)).Nodup
  balance : h.made = h.gone + (l.map (·.2.length)).sum + k

theorem holdsBut_call {sz : Nat} {mk : A → V × A} {h : Heap V} {l : List (Nat × List V)} {k : Nat} {op : Op A} (hh : HoldsBut sz h l k)
    (hc : Allowed sz l op) : ∃ h', step sz mk h op = .ok h' ∧ HoldsBut sz h' (spec mk h.next l op) (k + forgotten l op) := by
  cases op with
  | construct mem n a =>
    cases mem with
    | false => exact ⟨h, by simp [step, construct, allocate], by simpa [spec, forgotten] using hh⟩
    | true =>
      have hb : byteCount sz n = sz * n := Nat.mod_eq_of_lt (hc rfl)
      refine ⟨_, by
        simp only [step, construct, allocate, if_true, hb]
        rw [constructLoop_ok (total := n) n 0 _ a [] rfl (by omega) (by simp)], ?_⟩
      simp only [spec, if_true, List.nil_append, forgotten]
      refine ⟨?_, ?_, ?_, ?_⟩
      · intro q
        simp only [List.lookup_cons]
        by_cases hq : q = h.next
        · subst hq; simp [arrayBlock, values_length]
        · have : (q == h.next) = false := by simpa using hq
          simp [this, upd, hq, hh.blocks]
      · intro q hq
        rcases List.mem_cons.1 hq with rfl | hq
        · exact Nat.lt_succ_self _
        · exact Nat.lt_succ_of_lt (hh.fresh q hq)
      · simp only [List.map_cons, List.nodup_cons]
        refine ⟨?_, hh.once⟩
        intro hm
        obtain ⟨q, hq, e⟩ := List.mem_map.1 hm
        have := hh.fresh q hq
        omega
      · simp only [List.map_cons, List.sum_cons, values_length]
        have := hh.balance
        omega
  | destroy p n =>
    cases p with
    | none =>
      simp only [Allowed] at hc
      subst hc
      exact ⟨h, by simp [step, destroy, destroyLoop, deallocate], by simpa [spec, forgotten] using hh⟩
    | some p =>
      obtain ⟨vs, hp, hn⟩ := hc
      have hb : h.blk p = some (arrayBlock sz vs) := by rw [hh.blocks, hp]; rfl
      obtain ⟨c, e⟩ := destroyLoop_some (p := p) (b := arrayBlock sz vs) n 0 h vs (by omega) (by simp [hb, arrayBlock])
      refine ⟨{ h with blk := upd (upd h.blk p (some c)) p none, gone := h.gone + n },
        by simp only [step, destroy, e, deallocate, upd_self], ?_⟩
      simp only [spec, forgotten, hp]
      refine ⟨?_, ?_, ?_, ?_⟩
      · intro q
        rw [lookup_filter]
        by_cases hq : q = p
        · subst hq; simp
        · simp [upd, hq, hh.blocks]
      · intro q hq
        exact hh.fresh q (List.mem_filter.1 hq).1
      · exact hh.once.sublist (List.filter_sublist.map _)
      · have h1 := sum_filter l hh.once p vs hp
        have h2 := hh.balance
        simp only []
        omega

theorem destroyLoop_none {p : Nat} {k i : Nat} {h : Heap V} (hb : h.blk p = none) (hk : 0 < k) : destroyLoop (some p) k i h = .ub := by
  obtain ⟨m, rfl⟩ : ∃ m, k = m + 1 := ⟨k - 1, by omega⟩
  simp [destroyLoop, destroyAt, hb]

theorem not_allowed_ub {sz : Nat} {mk : A → V × A} {h : Heap V} {l : List (Nat × List V)} {k : Nat} {op : Op A} (hh : HoldsBut sz h l k)
    (hc : ¬ Allowed sz l op) : step sz mk h op = .ub := by
  cases op with
  | construct mem n a =>
    cases mem with
    | false => exact absurd (fun e => by cases e) hc
    | true =>
      have hov : 2 ^ 64 ≤ sz * n := Nat.le_of_not_lt fun hlt => hc fun _ => hlt
      simp only [step, C99_overflow_ub hov]
  | destroy p n =>
    cases p with
    | none =>
      obtain ⟨m, rfl⟩ : ∃ m, n = m + 1 := ⟨n - 1, by simp only [Allowed] at hc; omega⟩
      simp [step, destroy, destroyLoop]
    | some p =>
      cases hp : l.lookup p with
      | none =>
        have hb : h.blk p = none := by rw [hh.blocks, hp]; rfl
        rcases Nat.eq_zero_or_pos n with rfl | hn
        · simp [step, destroy, destroyLoop, deallocate, hb]
        · simp only [step, destroy, destroyLoop_none hb hn]
      | some vs =>
        have hb : h.blk p = some (arrayBlock sz vs) := by rw [hh.blocks, hp]; rfl
        have hn : vs.length < n := Nat.lt_of_not_le fun hle => hc ⟨vs, hp, hle⟩
        simp only [step, destroy]
        rw [destroyLoop_ub (b := arrayBlock sz vs) n 0 h vs (by omega) (by omega) (by simp [hb, arrayBlock])]

theorem hist_holds {sz : Nat} {mk : A → V × A} {h : Heap V} {l : List (Nat × List V)} {k : Nat} (hr : Hist sz mk h l k) : HoldsBut sz h l k := by
  induction hr with
  | start => exact ⟨fun _ => rfl, by simp, by simp, rfl⟩
  | @step h h' l k op _ hs ih =>
    have hc : Allowed sz l op := by
      apply Classical.byContradiction
      intro hc
      rw [not_allowed_ub ih hc] at hs
      cases hs
    obtain ⟨u, e, hu⟩ := holdsBut_call (mk := mk) ih hc
    rw [hs] at e
    injection e with e
    exact e ▸ hu

/-- **C99, exactly.**  After every history of calls that went through: a further `construct` is defined exactly if there is no memory or the size in bytes fits into `SizeType`; a `destroy` exactly if it is
given null and no objects, or an array the client has and at most as many objects as it has; then the calls go on as specified.  The heap contains exactly the client's arrays, and the
objects that were made and not destroyed are those in them and those the client did not count when handing arrays back; so when all arrays were handed back, every
object was destroyed if and only if the counts were right each time. -/
theorem C99_history_exact {sz : Nat} {mk : A → V × A} {h : Heap V} {l : List (Nat × List V)} {k : Nat} (hr : Hist sz mk h l k) :
    (∀ op, (∃ h', step sz mk h op = .ok h') ↔ Allowed sz l op) ∧
    (∀ p, h.blk p = (l.lookup p).map (arrayBlock sz)) ∧
    h.made = h.gone + (l.map (·.2.length)).sum + k ∧
    (l = [] → (∀ p, h.blk p = none) ∧ (h.made = h.gone ↔ k = 0)) := by
  have hh := hist_holds hr
  refine ⟨fun op => ⟨fun ⟨h', e⟩ => ?_, fun hc => ?_⟩, hh.blocks, hh.balance, ?_⟩
  · apply Classical.byContradiction
    intro hc
    rw [not_allowed_ub hh hc] at e
    cases e
  · obtain ⟨u, e, -⟩ := holdsBut_call (mk := mk) hh hc
    exact ⟨u, e⟩
  · rintro rfl
    refine ⟨fun p => by simpa using hh.blocks p, ?_⟩
    have := hh.balance
    simp only [List.map_nil, List.sum_nil] at this
    omega

/-- Specification: what reallocating the array `vs` at `p` to `n` objects has to do: null and nothing changed, or a new block of the right size with the first objects, the old
one released, and no other block changed. -/
def ReallocatesRight (sz : Nat) (h : Heap V) (p : Nat) (vs : List V) (n : Nat) (r : Res (Heap V × Option Nat)) : Prop :=
  r = .ok (h, none) ∨
  ∃ h' q b, r = .ok (h', some q) ∧ h.blk q = none ∧ h'.blk q = some b ∧ b.bytes = sz * n ∧ (∀ i, b.cells i = if i < n then vs[i]? else none) ∧
    h'.blk p = none ∧ ∀ x, x ≠ p → x ≠ q → h'.blk x = h.blk x

/-- **C100, exactly.**  `reallocateArray` of an array does what it should exactly if the new size in bytes, reduced modulo `2^64`, is not zero and, when there is memory, it fits into `SizeType`. -/
theorem C100_exact {sz : Nat} {h : Heap V} {l : List (Nat × List V)} {p n : Nat} {vs : List V} (hh : Holds sz h l) (hp : l.lookup p = some vs)
    (mem : Bool) :
    ReallocatesRight sz h p vs n (reallocateArray sz mem h (some p) n) ↔ sz * n % 2 ^ 64 ≠ 0 ∧ (mem = true → sz * n < 2 ^ 64) := by
  have hb : h.blk p = some (arrayBlock sz vs) := by rw [hh.blocks, hp]; rfl
  constructor
  · intro hr
    by_cases h0 : sz * n % 2 ^ 64 = 0
    · exfalso
      obtain ⟨h', e, hb', -⟩ := C100_zero_violated (mem := mem) hb h0
      rw [e] at hr
      rcases hr with hr | ⟨_, _, _, hr, -⟩
      · injection hr with hr
        injection hr with hr
        rw [hr, hb] at hb'
        cases hb'
      · injection hr with hr
        injection hr with _ hr
        cases hr
    · refine ⟨h0, ?_⟩
      rintro rfl
      apply Classical.byContradiction
      intro hlt
      obtain ⟨h', c, e, hc, hlt'⟩ := C100_overflow_violated hb (Nat.le_of_not_lt hlt) h0
      rw [e] at hr
      rcases hr with hr | ⟨h'', q, b, hr, -, h2, h3, -⟩
      · injection hr with hr
        injection hr with _ hr
        cases hr
      · injection hr with hr
        injection hr with hr1 hr2
        injection hr2 with hr2
        subst hr1 hr2
        rw [hc] at h2
        injection h2 with h2
        subst h2
        omega
  · rintro ⟨h0, hm⟩
    cases mem with
    | false => exact .inl (C100_no_memory_partial hb h0)
    | true =>
      have hs := hm rfl
      have hpos : 0 < sz * n := by
        rw [Nat.mod_eq_of_lt hs] at h0
        omega
      obtain ⟨h', e, ⟨b, h1, h2, h3⟩, h4, h5⟩ := C100_grow_partial hh hp hpos hs
      refine .inr ⟨h', h.next, b, e, ?_, h1, h2, h3, h4, h5⟩
      rw [hh.blocks, lookup_lt hh]
      rfl

-- an array of three objects is handed back as if it had two
example : ∃ h, Hist 8 byCopy h [(1, [4])] 1 ∧ (h.made, h.gone) = (4, 2) := by
  have r₁ : Hist 8 byCopy ex₁ [(0, [7, 7, 7])] 0 := .step (op := .construct true 3 7) .start rfl
  have r₂ : Hist 8 byCopy ex₂ [(1, [4]), (0, [7, 7, 7])] 0 := .step (op := .construct true 1 4) r₁ rfl
  have r₃ : Hist 8 byCopy (exStep ex₂ (.destroy (some 0) 2)) [(1, [4])] 1 := .step (op := .destroy (some 0) 2) r₂ rfl
  exact ⟨_, r₃, rfl⟩

example : Holds 8 ex₁ [(0, [7, 7, 7])] := C99_history_partial (mk := byCopy) (.step (op := .construct true 3 7) .start (by decide : 8 * 3 < 2 ^ 64) rfl)

namespace Flame.Alloc
open Flame.Own
example := C99_history_exact (.step (op := .construct true 3 7) .start rfl : Hist 8 byCopy ex₁ [(0, [7, 7, 7])] 0)
end Flame.Alloc

end Flame.Alloc
