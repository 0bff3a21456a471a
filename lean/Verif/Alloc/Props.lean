import Verif.Alloc.Model

/-!
# C99-C101: what the allocators promise

The specification is a list of arrays: the number of the block and the objects in it.  `Holds` says that the heap contains exactly
these arrays, each in a block of the right size, and that every constructed object was destroyed or is in one of them.
-/

namespace Flame.Alloc
open Flame.Own

variable {V A : Type}

/-- The block of an array of objects of `sz` bytes. -/
def arrayBlock (sz : Nat) (vs : List V) : Block V := ⟨sz * vs.length, fun i => vs[i]?⟩

/-- The heap contains exactly the arrays of `l`. -/
structure Holds (sz : Nat) (h : Heap V) (l : List (Nat × List V)) : Prop where
  blocks : ∀ p, h.blk p = (l.lookup p).map (arrayBlock sz)
  fresh : ∀ q ∈ l, q.1 < h.next
  once : (l.map (·.1)).Nodup
  balance : h.made = h.gone + (l.map (·.2.length)).sum

/-- The objects made from the arguments `a`, one after the other. -/
def values (mk : A → V × A) : Nat → A → List V
  | 0, _ => []
  | n + 1, a => (mk a).1 :: values mk n (mk a).2

/-- What is left of the arguments. -/
def leftOf (mk : A → V × A) : Nat → A → A
  | 0, a => a
  | n + 1, a => leftOf mk n (mk a).2

theorem values_length (mk : A → V × A) (n : Nat) (a : A) : (values mk n a).length = n := by
  induction n generalizing a with
  | zero => rfl
  | succ n ih => simp [values, ih]

/-- Calls a client makes. -/
inductive Op (A : Type) where
  | construct (mem : Bool) (count : Nat) (a : A)
  | destroy (p : Option Nat) (count : Nat)

def step (sz : Nat) (mk : A → V × A) (h : Heap V) : Op A → Res (Heap V)
  | .construct mem n a => match construct sz mk mem h n a with
    | .ok (h', _) => .ok h'
    | .ub => .ub
    | .loop => .loop
  | .destroy p n => match destroy h p n with
    | .ok (h', _) => .ok h'
    | .ub => .ub
    | .loop => .loop

/-- The client's duties: sizes that exist, and arrays handed back as they were given out. -/
def Careful (sz : Nat) (l : List (Nat × List V)) : Op A → Prop
  | .construct _ n _ => sz * n < 2 ^ 64
  | .destroy none n => n = 0
  | .destroy (some p) n => ∃ vs, l.lookup p = some vs ∧ vs.length = n

/-- What the call should do; `p` is the new block. -/
def spec (mk : A → V × A) (p : Nat) (l : List (Nat × List V)) : Op A → List (Nat × List V)
  | .construct mem n a => if mem then (p, values mk n a) :: l else l
  | .destroy none _ => l
  | .destroy (some p) _ => l.filter (fun q => q.1 ≠ p)

theorem Heap.ext_blk {h : Heap V} {f : Nat → Option (Block V)} (e : ∀ p, h.blk p = f p) : h = { h with blk := f } := by
  cases h; congr; exact funext e

/-- While `construct` is running: the first objects of the block are there. -/
theorem constructLoop_ok {sz : Nat} {mk : A → V × A} {p total : Nat} (k i : Nat) (h : Heap V) (a : A) (done : List V)
    (hd : done.length = i) (hk : i + k = total)
    (hb : h.blk p = some ⟨sz * total, fun j => done[j]?⟩) :
    constructLoop sz mk p k i h a = .ok
      ({ h with blk := upd h.blk p (some ⟨sz * total, fun j => (done ++ values mk k a)[j]?⟩), made := h.made + k },
        leftOf mk k a) := by
  induction k generalizing i h a done with
  | zero =>
    simp only [constructLoop, values, List.append_nil, leftOf, Nat.add_zero, Res.ok.injEq, Prod.mk.injEq, and_true]
    apply Heap.ext_blk
    intro q
    by_cases hq : q = p
    · subst hq; simp [hb]
    · simp [upd, hq]
  | succ k ih =>
    have hle : (i + 1) * sz ≤ sz * total := by
      rw [Nat.mul_comm]; exact Nat.mul_le_mul_left _ (by omega)
    simp only [constructLoop, place, hb, hle, if_true]
    rw [ih (i + 1) _ (mk a).2 (done ++ [(mk a).1]) (by simp [hd]) (by omega)]
    · simp only [Res.ok.injEq, Prod.mk.injEq, leftOf, and_true, values, List.append_assoc, List.singleton_append]
      congr 1
      · funext q
        by_cases hq : q = p
        · subst hq; simp
        · simp [upd, hq]
      · omega
    · simp only [upd_self, Option.some.injEq, Block.mk.injEq, true_and]
      funext j
      by_cases hj : j = i
      · subst hj; simp [← hd]
      · rw [upd_ne _ _ hj]
        by_cases hlt : j < done.length
        · rw [List.getElem?_append_left hlt]
        · rw [List.getElem?_eq_none (by omega), List.getElem?_eq_none (by simp; omega)]

/-- While `destroy` is running: the first objects of the block are gone. -/
theorem destroyLoop_ok {p : Nat} {b : Block V} (k i : Nat) (h : Heap V) (vs : List V)
    (hk : i + k = vs.length) (hb : h.blk p = some ⟨b.bytes, fun j => if j < i then none else vs[j]?⟩) :
    destroyLoop (some p) k i h = .ok
      { h with blk := upd h.blk p (some ⟨b.bytes, fun _ => none⟩), gone := h.gone + k } := by
  induction k generalizing i h with
  | zero =>
    simp only [destroyLoop, Nat.add_zero, Res.ok.injEq]
    apply Heap.ext_blk
    intro q
    by_cases hq : q = p
    · subst hq
      simp only [hb, upd_self, Option.some.injEq, Block.mk.injEq, true_and]
      funext j
      split
      · rfl
      · exact List.getElem?_eq_none (by omega)
    · simp [upd, hq]
  | succ k ih =>
    have hi : vs[i]? = some vs[i] := List.getElem?_eq_getElem (by omega)
    simp only [destroyLoop, destroyAt, hb, Nat.lt_irrefl, if_false, hi]
    rw [ih (i + 1) _ (by omega)]
    · simp only [Res.ok.injEq]
      congr 1
      · funext q
        by_cases hq : q = p
        · subst hq; simp
        · simp [upd, hq]
      · omega
    · simp only [upd_self, Option.some.injEq, Block.mk.injEq, true_and]
      funext j
      by_cases hj : j = i
      · subst hj; simp
      · rw [upd_ne _ _ hj]
        by_cases hlt : j < i
        · simp [hlt, Nat.lt_succ_of_lt hlt]
        · have : ¬ j < i + 1 := by omega
          simp [hlt, this]

theorem lookup_lt {sz : Nat} {h : Heap V} {l : List (Nat × List V)} (hh : Holds sz h l) : l.lookup h.next = none := by
  rw [List.lookup_eq_none_iff]
  intro q hq
  have := hh.fresh q hq
  simp; omega

theorem lookup_filter (l : List (Nat × List V)) (p q : Nat) :
    (l.filter (fun r => r.1 ≠ p)).lookup q = if q = p then none else l.lookup q := by
  induction l with
  | nil => simp
  | cons r l ih =>
    obtain ⟨k, vs⟩ := r
    simp only [List.filter_cons, List.lookup_cons]
    by_cases hk : k = p
    · subst hk
      simp only [ne_eq, not_true, decide_false, Bool.false_eq_true, if_false, ih]
      by_cases hq : q = k
      · simp [hq]
      · have hqb : (q == k) = false := by simpa using hq
        simp [hq, hqb]
    · simp only [ne_eq, hk, not_false_eq_true, decide_true, if_true, List.lookup_cons, ih]
      by_cases hq : q = k
      · subst hq; simp [hk]
      · have hqb : (q == k) = false := by simpa using hq
        simp [hqb]

theorem sum_filter (l : List (Nat × List V)) (hn : (l.map (·.1)).Nodup) (p : Nat) (vs : List V) (hp : l.lookup p = some vs) :
    (l.map (·.2.length)).sum = ((l.filter (fun r => r.1 ≠ p)).map (·.2.length)).sum + vs.length := by
  induction l with
  | nil => simp at hp
  | cons r l ih =>
    obtain ⟨k, ws⟩ := r
    simp only [List.map_cons, List.nodup_cons] at hn
    simp only [List.lookup_cons] at hp
    by_cases hk : p = k
    · subst hk
      simp only [BEq.rfl, Option.some.injEq] at hp
      subst hp
      have : l.filter (fun r => r.1 ≠ p) = l := by
        rw [List.filter_eq_self]
        intro x hx
        have : x.1 ≠ p := fun e => hn.1 (e ▸ List.mem_map_of_mem hx)
        simpa using this
      simp only [ne_eq, decide_not, List.filter_cons, decide_true, Bool.not_true, Bool.false_eq_true, if_false] at this ⊢
      rw [this]
      simp; omega
    · have hkb : (p == k) = false := by simpa using hk
      simp only [hkb] at hp
      have h' := ih hn.2 hp
      have hkk : ¬ k = p := fun e => hk e.symm
      simp only [ne_eq, decide_not] at h'
      simp [List.filter_cons, hkk, h']; omega

/-- C99: a careful call never fails, hands out a fresh array of exactly the requested objects (or null when there is no memory),
or destroys all objects of an array and releases its block; nothing else changes. -/
theorem C99_call {sz : Nat} {mk : A → V × A} {h : Heap V} {l : List (Nat × List V)} {op : Op A} (hh : Holds sz h l)
    (hc : Careful sz l op) : ∃ h', step sz mk h op = .ok h' ∧ Holds sz h' (spec mk h.next l op) := by
  cases op with
  | construct mem n a =>
    simp only [Careful] at hc
    cases mem with
    | false => exact ⟨h, by simp [step, construct, allocate], by simpa [spec] using hh⟩
    | true =>
      have hb : byteCount sz n = sz * n := Nat.mod_eq_of_lt hc
      refine ⟨_, by
        simp only [step, construct, allocate, if_true, hb]
        rw [constructLoop_ok (total := n) n 0 _ a [] rfl (by omega) (by simp)], ?_⟩
      simp only [spec, if_true, List.nil_append]
      refine ⟨?_, ?_, ?_, ?_⟩
      · intro q
        simp only [List.lookup_cons]
        by_cases hq : q = h.next
        · subst hq; simp [arrayBlock, values_length]
        · have : (q == h.next) = false := by simpa using hq
          simp [this, upd, hq, hh.blocks]
      · intro q hq
        rcases List.mem_cons.1 hq with rfl | hq
        · exact Nat.lt_succ_self _
        · exact Nat.lt_succ_of_lt (hh.fresh q hq)
      · simp only [List.map_cons, List.nodup_cons]
        refine ⟨?_, hh.once⟩
        intro hm
        obtain ⟨q, hq, e⟩ := List.mem_map.1 hm
        have := hh.fresh q hq
        omega
      · simp only [List.map_cons, List.sum_cons, values_length]
        have := hh.balance
        omega
  | destroy p n =>
    cases p with
    | none =>
      simp only [Careful] at hc
      subst hc
      exact ⟨h, by simp [step, destroy, destroyLoop, deallocate], by simpa [spec] using hh⟩
    | some p =>
      obtain ⟨vs, hp, rfl⟩ := hc
      have hb : h.blk p = some (arrayBlock sz vs) := by rw [hh.blocks, hp]; rfl
      have e := destroyLoop_ok (p := p) (b := arrayBlock sz vs) vs.length 0 h vs (by omega) (by simp [hb, arrayBlock])
      refine ⟨{ h with blk := upd (upd h.blk p (some ⟨(arrayBlock sz vs).bytes, fun _ => none⟩)) p none, gone := h.gone + vs.length },
        by simp only [step, destroy, e, deallocate, upd_self], ?_⟩
      simp only [spec]
      refine ⟨?_, ?_, ?_, ?_⟩
      · intro q
        rw [lookup_filter]
        by_cases hq : q = p
        · subst hq; simp
        · simp [upd, hq, hh.blocks]
      · intro q hq
        exact hh.fresh q (List.mem_filter.1 hq).1
      · exact hh.once.sublist (List.filter_sublist.map _)
      · have h1 := sum_filter l hh.once p vs hp
        have h2 := hh.balance
        simp only []
        omega

/-- Histories in which the client keeps its duties, with the arrays it then owns. -/
inductive Run (sz : Nat) (mk : A → V × A) : Heap V → List (Nat × List V) → Prop where
  | start : Run sz mk Heap.empty []
  | step {h h' l op} : Run sz mk h l → Careful sz l op → step sz mk h op = .ok h' → Run sz mk h' (spec mk h.next l op)

/-- C99: after every careful history the heap contains exactly the arrays handed out and not yet handed back. -/
theorem C99_history_partial {sz : Nat} {mk : A → V × A} {h : Heap V} {l : List (Nat × List V)} (hr : Run sz mk h l) :
    Holds sz h l := by
  induction hr with
  | start => exact ⟨fun _ => rfl, by simp, by simp, rfl⟩
  | step hr hc hs ih =>
    obtain ⟨h', e, hh⟩ := C99_call (mk := mk) ih hc
    rw [hs] at e
    injection e with e
    exact e ▸ hh

/-- C99: when every array has been handed back, no block is left and every object was destroyed. -/
theorem C99_no_leak_partial {sz : Nat} {mk : A → V × A} {h : Heap V} (hr : Run sz mk h []) :
    (∀ p, h.blk p = none) ∧ h.made = h.gone := by
  have hh := C99_history_partial hr
  exact ⟨fun p => by simpa using hh.blocks p, by simpa using hh.balance⟩

/-- C99: from arguments that constructors leave alone all objects are equal. -/
theorem C99_lvalue_args {mk : A → V × A} {a : A} (h : (mk a).2 = a) (n : Nat) : values mk n a = List.replicate n (mk a).1 := by
  induction n with
  | zero => rfl
  | succ n ih => simp [values, h, ih, List.replicate_succ]

/-- C99 fails for arguments given as rvalues: from the second object on the constructor gets what its predecessor left. -/
theorem C99_rvalue_args_violated {mk : A → V × A} {a : A} (h : (mk (mk a).2).1 ≠ (mk a).1) {n : Nat} (hn : 2 ≤ n) :
    values mk n a ≠ List.replicate n (mk a).1 := by
  obtain ⟨m, rfl⟩ : ∃ m, n = m + 2 := ⟨n - 2, by omega⟩
  intro e
  simp only [values, List.replicate_succ, List.cons.injEq] at e
  exact h e.2.1

theorem place_bytes {sz : Nat} {h h' : Heap V} {p i : Nat} {v : V} {b : Block V} (hb : h.blk p = some b)
    (e : place sz h p i v = .ok h') : ∃ b', h'.blk p = some b' ∧ b'.bytes = b.bytes ∧ (i + 1) * sz ≤ b.bytes := by
  simp only [place, hb] at e
  split at e
  · injection e with e
    subst e
    exact ⟨{ b with cells := upd b.cells i (some v) }, by simp, rfl, by assumption⟩
  · cases e

theorem constructLoop_fits {sz : Nat} {mk : A → V × A} {p : Nat} (k i : Nat) (h : Heap V) (a : A) {b : Block V} (hb : h.blk p = some b)
    {r} (e : constructLoop sz mk p k i h a = .ok r) (hk : 0 < k) : (i + k) * sz ≤ b.bytes := by
  induction k generalizing i h a b with
  | zero => omega
  | succ k ih =>
    simp only [constructLoop] at e
    cases hp : place sz h p i (mk a).1 with
    | ok h' =>
      simp only [hp] at e
      obtain ⟨b', hb', hbb, hle⟩ := place_bytes hb hp
      cases k with
      | zero => simpa using hle
      | succ k =>
        have := ih (i + 1) h' (mk a).2 hb' e (by omega)
        rw [hbb] at this
        have e2 : i + 1 + (k + 1) = i + (k + 1 + 1) := by omega
        rwa [e2] at this
    | ub => simp [hp] at e
    | loop => simp [hp] at e

theorem constructLoop_not_loop {sz : Nat} {mk : A → V × A} {p : Nat} (k i : Nat) (h : Heap V) (a : A) :
    constructLoop sz mk p k i h a ≠ .loop := by
  induction k generalizing i h a with
  | zero => simp [constructLoop]
  | succ k ih =>
    simp only [constructLoop]
    cases hp : place sz h p i (mk a).1 with
    | ok h' => exact ih _ _ _
    | ub => simp
    | loop =>
      simp only [place] at hp
      split at hp
      · cases hp
      · split at hp <;> cases hp

/-- C99 fails for every array whose size in bytes does not fit into `SizeType`: the block is too small, and writing the
objects leaves it. -/
theorem C99_overflow_ub {sz : Nat} {mk : A → V × A} {h : Heap V} {n : Nat} {a : A} (hov : 2 ^ 64 ≤ sz * n) :
    construct sz mk true h n a = .ub := by
  simp only [construct, allocate, if_true]
  have hn : 0 < n := by
    rcases Nat.eq_zero_or_pos n with rfl | hp
    · simp at hov
    · exact hp
  cases hl : constructLoop sz mk h.next n 0
      { h with blk := upd h.blk h.next (some ⟨byteCount sz n, fun _ => none⟩), next := h.next + 1 } a with
  | ok r =>
    have := constructLoop_fits n 0 _ a (by simp : _ = some (⟨byteCount sz n, fun _ => none⟩ : Block V)) hl hn
    simp only [Nat.zero_add, byteCount] at this
    have hlt := Nat.mod_lt (sz * n) (by decide : 0 < 2 ^ 64)
    rw [Nat.mul_comm] at this
    omega
  | ub => rfl
  | loop => exact absurd hl (constructLoop_not_loop n 0 _ a)

/-- C99: what is asked of `malloc` never exceeds `maxAllocateSize()`, and everything up to it can be asked for; exactly the byte counts above
it are asked for wrongly. -/
theorem C99_request_bound (sz n : Nat) :
    byteCount sz n ≤ maxAllocateSize ∧ (byteCount sz n = sz * n ↔ sz * n ≤ maxAllocateSize) := by
  unfold byteCount maxAllocateSize
  constructor
  · omega
  · constructor
    · intro h
      have : sz * n % 2 ^ 64 < 2 ^ 64 := Nat.mod_lt _ (by omega)
      omega
    · intro h
      exact Nat.mod_eq_of_lt (by omega)

/-- C99: without memory nothing happens and the result is null, whatever the size. -/
theorem C99_no_memory {sz : Nat} {mk : A → V × A} {h : Heap V} {n : Nat} {a : A} : construct sz mk false h n a = .ok (h, none, a) := by
  simp [construct, allocate]

/-- C99: `construct` returns the new block, and afterwards the arguments are what the constructors left. -/
theorem C99_result {sz : Nat} {mk : A → V × A} {h : Heap V} {n : Nat} {a : A} (hs : sz * n < 2 ^ 64) :
    ∃ h', construct sz mk true h n a = .ok (h', some h.next, leftOf mk n a) := by
  simp only [construct, allocate, if_true, byteCount, Nat.mod_eq_of_lt hs]
  rw [constructLoop_ok (total := n) n 0 _ a [] rfl (by omega) (by simp)]
  exact ⟨_, rfl⟩

/-- C99: `destroy` sets the pointer to null. -/
theorem C99_destroy_null {h h' : Heap V} {p q : Option Nat} {n : Nat} (e : destroy h p n = .ok (h', q)) : q = none := by
  simp only [destroy] at e
  split at e
  · split at e
    · injection e with e; injection e with e1 e2; exact e2.symm
    · cases e
    · cases e
  · cases e
  · cases e

theorem destroyLoop_ub {p : Nat} {b : Block V} (k i : Nat) (h : Heap V) (vs : List V)
    (hi : i ≤ vs.length) (hk : vs.length < i + k) (hb : h.blk p = some ⟨b.bytes, fun j => if j < i then none else vs[j]?⟩) :
    destroyLoop (some p) k i h = .ub := by
  induction k generalizing i h with
  | zero => omega
  | succ k ih =>
    simp only [destroyLoop, destroyAt, hb, Nat.lt_irrefl, if_false]
    rcases Nat.lt_or_ge i vs.length with hlt | hge
    · simp only [List.getElem?_eq_getElem hlt]
      apply ih (i + 1) _ (by omega) (by omega)
      simp only [upd_self, Option.some.injEq, Block.mk.injEq, true_and]
      funext j
      by_cases hj : j = i
      · subst hj; simp
      · rw [upd_ne _ _ hj]
        by_cases hlt : j < i
        · simp [hlt, Nat.lt_succ_of_lt hlt]
        · have : ¬ j < i + 1 := by omega
          simp [hlt, this]
    · simp [List.getElem?_eq_none hge]

/-- C99: `destroy` with too great a count is undefined, and so is any positive count for null. -/
theorem C99_destroy_too_many_ub {sz : Nat} {h : Heap V} {l : List (Nat × List V)} {p : Nat} {vs : List V} {n : Nat}
    (hh : Holds sz h l) (hp : l.lookup p = some vs) (hn : vs.length < n) :
    destroy h (some p) n = .ub ∧ destroy h none n = .ub := by
  have hb : h.blk p = some (arrayBlock sz vs) := by rw [hh.blocks, hp]; rfl
  constructor
  · simp only [destroy]
    rw [destroyLoop_ub (b := arrayBlock sz vs) n 0 h vs (by omega) (by omega) (by simp [hb, arrayBlock])]
  · obtain ⟨m, rfl⟩ : ∃ m, n = m + 1 := ⟨n - 1, by omega⟩
    simp [destroy, destroyLoop]

theorem destroyLoop_some {p : Nat} {b : Block V} (k i : Nat) (h : Heap V) (vs : List V)
    (hk : i + k ≤ vs.length) (hb : h.blk p = some ⟨b.bytes, fun j => if j < i then none else vs[j]?⟩) :
    ∃ c, destroyLoop (some p) k i h = .ok { h with blk := upd h.blk p (some c), gone := h.gone + k } := by
  induction k generalizing i h with
  | zero =>
    refine ⟨⟨b.bytes, fun j => if j < i then none else vs[j]?⟩, ?_⟩
    simp only [destroyLoop, Nat.add_zero, Res.ok.injEq]
    apply Heap.ext_blk
    intro q
    by_cases hq : q = p
    · subst hq
      simp only [hb, upd_self]
    · simp [upd, hq]
  | succ k ih =>
    have hi : vs[i]? = some vs[i] := List.getElem?_eq_getElem (by omega)
    simp only [destroyLoop, destroyAt, hb, Nat.lt_irrefl, if_false, hi]
    obtain ⟨c, e⟩ := ih (i + 1)
      { h with blk := upd h.blk p (some ⟨b.bytes, upd (fun j => if j < i then none else vs[j]?) i none⟩), gone := h.gone + 1 }
      (by omega) (by
        simp only [upd_self, Option.some.injEq, Block.mk.injEq, true_and]
        funext j
        by_cases hj : j = i
        · subst hj; simp
        · rw [upd_ne _ _ hj]
          by_cases hlt : j < i
          · simp [hlt, Nat.lt_succ_of_lt hlt]
          · have : ¬ j < i + 1 := by omega
            simp [hlt, this])
    refine ⟨c, ?_⟩
    rw [e]
    simp only [Res.ok.injEq]
    congr 1
    · funext q
      by_cases hq : q = p
      · subst hq; simp
      · simp [upd, hq]
    · omega

/-- C99: `destroy` with too small a count loses the other objects: the block is gone, exactly `length - n` objects are never destroyed. -/
theorem C99_destroy_too_few {sz : Nat} {h : Heap V} {l : List (Nat × List V)} {p : Nat} {vs : List V} {n : Nat}
    (hh : Holds sz h l) (hp : l.lookup p = some vs) (hn : n ≤ vs.length) :
    ∃ h', destroy h (some p) n = .ok (h', none) ∧ h'.blk p = none ∧ (∀ q, q ≠ p → h'.blk q = h.blk q) ∧
      h'.made = h'.gone + ((l.filter (fun r => r.1 ≠ p)).map (·.2.length)).sum + (vs.length - n) := by
  have hb : h.blk p = some (arrayBlock sz vs) := by rw [hh.blocks, hp]; rfl
  obtain ⟨c, e⟩ := destroyLoop_some (p := p) (b := arrayBlock sz vs) n 0 h vs (by omega) (by simp [hb, arrayBlock])
  refine ⟨{ h with blk := upd (upd h.blk p (some c)) p none, gone := h.gone + n },
    by simp only [destroy, e, deallocate, upd_self], by simp, ?_, ?_⟩
  · intro q hq; simp [upd, hq]
  · have h1 := sum_filter l hh.once p vs hp
    have h2 := hh.balance
    simp only []
    omega

/-! ## C100: reallocating -/

/-- C100: if there is memory and the size is a positive `SizeType`, `reallocateArray` gives a new block of the new size with the first
objects of the old one, which is released; other blocks stay. -/
theorem C100_grow_partial {sz : Nat} {h : Heap V} {l : List (Nat × List V)} {p n : Nat} {vs : List V} (hh : Holds sz h l)
    (hp : l.lookup p = some vs) (h0 : 0 < sz * n) (hs : sz * n < 2 ^ 64) :
    ∃ h', reallocateArray sz true h (some p) n = .ok (h', some h.next) ∧
      (∃ b, h'.blk h.next = some b ∧ b.bytes = sz * n ∧ ∀ i, b.cells i = if i < n then vs[i]? else none) ∧
      h'.blk p = none ∧ ∀ q, q ≠ p → q ≠ h.next → h'.blk q = h.blk q := by
  have hb : h.blk p = some (arrayBlock sz vs) := by rw [hh.blocks, hp]; rfl
  have hlt : p < h.next := by
    apply Classical.byContradiction
    intro hge
    have : l.lookup p = none := by
      rw [List.lookup_eq_none_iff]
      intro q hq
      have := hh.fresh q hq
      simp; omega
    simp [this] at hp
  have hne : p ≠ h.next := by omega
  refine ⟨{ h with
      blk := upd (upd h.blk p none) h.next
        (some ⟨sz * n, fun i => if (i + 1) * sz ≤ sz * n then (arrayBlock sz vs).cells i else none⟩)
      next := h.next + 1 }, by
    simp only [reallocateArray, reallocate, hb, byteCount, Nat.mod_eq_of_lt hs, if_neg (Nat.pos_iff_ne_zero.1 h0), if_true], ?_, ?_, ?_⟩
  · refine ⟨⟨sz * n, fun i => if (i + 1) * sz ≤ sz * n then (arrayBlock sz vs).cells i else none⟩, by simp only [upd_self], rfl, ?_⟩
    intro i
    simp only [arrayBlock]
    have hsz : 0 < sz := Nat.pos_of_mul_pos_right h0
    have : (i + 1) * sz ≤ sz * n ↔ i < n := by
      rw [Nat.mul_comm sz n]
      constructor
      · intro hle; have := Nat.le_of_mul_le_mul_right hle hsz; omega
      · intro hlt; exact Nat.mul_le_mul_right _ hlt
    simp only [this]
  · simp [upd, hne]
  · intro q hq hq'; simp [upd, hq, hq']

/-- C100: when the memory is missing nothing changes and the result is null. -/
theorem C100_no_memory_partial {sz : Nat} {h : Heap V} {p n : Nat} {b : Block V} (hb : h.blk p = some b)
    (h0 : sz * n % 2 ^ 64 ≠ 0) : reallocateArray sz false h (some p) n = .ok (h, none) := by
  simp [reallocateArray, reallocate, hb, byteCount, h0]

/-- C100 fails for the size zero (also one that is a multiple of `2^64`): the result is null although the array is gone. -/
theorem C100_zero_violated {sz : Nat} {mem : Bool} {h : Heap V} {p n : Nat} {b : Block V} (hb : h.blk p = some b)
    (h0 : sz * n % 2 ^ 64 = 0) :
    ∃ h', reallocateArray sz mem h (some p) n = .ok (h', none) ∧ h'.blk p = none ∧ destroy h' (some p) 0 = .ub := by
  refine ⟨{ h with blk := upd h.blk p none }, by simp [reallocateArray, reallocate, hb, byteCount, h0], by simp, ?_⟩
  simp [destroy, destroyLoop, deallocate]

/-- C100 fails for sizes that do not fit: the new block is smaller than asked for. -/
theorem C100_overflow_violated {sz : Nat} {h : Heap V} {p n : Nat} {b : Block V} (hb : h.blk p = some b)
    (hov : 2 ^ 64 ≤ sz * n) (h0 : sz * n % 2 ^ 64 ≠ 0) :
    ∃ h' c, reallocateArray sz true h (some p) n = .ok (h', some h.next) ∧ h'.blk h.next = some c ∧ c.bytes < sz * n := by
  refine ⟨_, _, by simp only [reallocateArray, reallocate, hb, byteCount, if_neg h0, if_true]; rfl, by simp only [upd_self]; rfl, ?_⟩
  have := Nat.mod_lt (sz * n) (by decide : 0 < 2 ^ 64)
  simp only []
  omega

/-- C100: reallocating null is `createArray`, and raw arrays are released by `freeArray`. -/
theorem C100_null {sz : Nat} {mem : Bool} {h : Heap V} {n : Nat} :
    reallocateArray sz mem h none n = .ok (createArray sz mem h n) := rfl

/-- C100: `createArray` gives an empty block of the right size, `freeArray` takes exactly it away. -/
theorem C100_create_free {sz : Nat} {h : Heap V} {n : Nat} (hs : sz * n < 2 ^ 64) (hfree : h.blk h.next = none) :
    ∃ h' h'', createArray sz true h n = (h', some h.next) ∧ h'.blk h.next = some ⟨sz * n, fun _ => none⟩ ∧
      freeArray h' (some h.next) = .ok h'' ∧ ∀ q, h''.blk q = h.blk q := by
  refine ⟨{ h with blk := upd h.blk h.next (some ⟨sz * n, fun _ => none⟩), next := h.next + 1 },
    { h with blk := upd (upd h.blk h.next (some ⟨sz * n, fun _ => none⟩)) h.next none, next := h.next + 1 },
    by simp only [createArray, allocate, if_true, byteCount, Nat.mod_eq_of_lt hs], by simp only [upd_self],
    by simp only [freeArray, deallocate, upd_self], ?_⟩
  intro q
  by_cases hq : q = h.next
  · subst hq; simp [hfree]
  · simp [upd, hq]

/-! ## C101: single objects -/

/-- C101: `construct` gives null or a fresh block of the size of the object with exactly that object in it. -/
theorem C101_construct {sz : Nat} {mk : A → V × A} {h : Heap V} {a : A} (hs : sz < 2 ^ 64) :
    constructObject sz mk false h a = .ok (h, none, a) ∧
    ∃ h', constructObject sz mk true h a = .ok (h', some h.next, (mk a).2) ∧
      h'.blk h.next = some (arrayBlock sz [(mk a).1]) ∧ (∀ q, q ≠ h.next → h'.blk q = h.blk q) ∧
      h'.made = h.made + 1 ∧ h'.gone = h.gone := by
  refine ⟨by simp [constructObject, allocate], ?_⟩
  refine ⟨{ h with
      blk := upd (upd h.blk h.next (some ⟨sz, fun _ => none⟩)) h.next (some ⟨sz, upd (fun _ => none) 0 (some (mk a).1)⟩)
      next := h.next + 1, made := h.made + 1 }, by
    simp only [constructObject, allocate, if_true, Nat.mod_eq_of_lt hs, place, upd_self, Nat.zero_add, Nat.one_mul, Nat.le_refl], ?_, ?_, rfl, rfl⟩
  · simp only [upd_self, arrayBlock, List.length_singleton, Nat.mul_one, Option.some.injEq, Block.mk.injEq, true_and]
    funext i
    by_cases hi : i = 0
    · subst hi; simp
    · rw [upd_ne _ _ hi, List.getElem?_eq_none (by simp; omega)]
  · intro q hq; simp [upd, hq]

/-- C101: `destroy` destroys the object, releases its block and sets the pointer to null. -/
theorem C101_destroy {h : Heap V} {p : Nat} {b : Block V} {v : V} (hb : h.blk p = some b) (hv : b.cells 0 = some v) :
    ∃ h', destroyObject h (some p) = .ok (h', none) ∧ h'.blk p = none ∧ (∀ q, q ≠ p → h'.blk q = h.blk q) ∧
      h'.made = h.made ∧ h'.gone = h.gone + 1 := by
  refine ⟨{ h with blk := upd (upd h.blk p (some { b with cells := upd b.cells 0 none })) p none, gone := h.gone + 1 },
    by simp only [destroyObject, destroyAt, hb, hv, deallocate, upd_self], by simp, ?_, rfl, rfl⟩
  intro q hq; simp [upd, hq]

/-- C101: constructing and destroying leaves no trace. -/
theorem C101_pair_partial {sz : Nat} {mk : A → V × A} {h : Heap V} {a : A} (hs : sz < 2 ^ 64) (hfree : h.blk h.next = none) :
    ∃ h' h'', constructObject sz mk true h a = .ok (h', some h.next, (mk a).2) ∧ destroyObject h' (some h.next) = .ok (h'', none) ∧
      (∀ q, h''.blk q = h.blk q) ∧ h''.made - h''.gone = h.made - h.gone := by
  obtain ⟨h', e, hb, ho, hm, hg⟩ := (C101_construct (mk := mk) (h := h) (a := a) hs).2
  obtain ⟨h'', e', hb', ho', hm', hg'⟩ := C101_destroy hb (v := (mk a).1) rfl
  refine ⟨h', h'', e, e', ?_, by omega⟩
  intro q
  by_cases hq : q = h.next
  · subst hq; rw [hb', hfree]
  · rw [ho' q hq, ho q hq]

/-- C101 fails for null: `destroy` dereferences it. -/
theorem C101_null_ub {h : Heap V} : destroyObject h none = .ub := rfl

/-- C101, destroying, exactly: `destroy` is defined exactly for a pointer to a block with a live object at its start; in particular not for null, nor a
second time, nor for a block whose object was never constructed. -/
theorem C101_destroy_exact {h : Heap V} (p : Option Nat) :
    (∃ r, destroyObject h p = .ok r) ↔ ∃ q b v, p = some q ∧ h.blk q = some b ∧ b.cells 0 = some v := by
  constructor
  · rintro ⟨r, hr⟩
    cases p with
    | none => cases hr
    | some q =>
      cases hb : h.blk q with
      | none => simp [destroyObject, destroyAt, hb] at hr
      | some b =>
        cases hv : b.cells 0 with
        | none => simp [destroyObject, destroyAt, hb, hv] at hr
        | some v => exact ⟨q, b, v, rfl, hb, hv⟩
  · rintro ⟨q, b, v, rfl, hb, hv⟩
    obtain ⟨h', e, _⟩ := C101_destroy hb hv
    exact ⟨_, e⟩

/-- C101 fails for rvalues: the argument is copied, not moved from: it keeps its value. -/
theorem C101_rvalue_violated {sz : Nat} {c : Copying V} {h : Heap V} {v : V} (hs : sz < 2 ^ 64) (hm : (c.move v).2 ≠ v) :
    ∃ h' b, constructRvalue sz c true h v = .ok (h', some h.next, v) ∧ h'.blk h.next = some b ∧ b.cells 0 = some (c.copy v) ∧
      constructRvalue sz c true h v = constructLvalue sz c true h v ∧ v ≠ (c.move v).2 := by
  obtain ⟨h', e, hb, _⟩ := (C101_construct (mk := fun v => (c.copy v, v)) (h := h) (a := v) hs).2
  exact ⟨h', _, e, hb, rfl, rfl, fun e => hm e.symm⟩

/-! ## Examples -/

/-- Objects are numbers; the argument is copied. -/
def byCopy : Nat → Nat × Nat := fun v => (v, v)
/-- The argument is moved from: zero is left. -/
def byMove : Nat → Nat × Nat := fun v => (v, 0)

example : values byCopy 3 7 = [7, 7, 7] ∧ values byMove 3 7 = [7, 0, 0] := by decide

def exStep (h : Heap Nat) (op : Op Nat) : Heap Nat := match step 8 byCopy h op with
  | .ok h' => h'
  | _ => h

def ex₁ : Heap Nat := exStep Heap.empty (.construct true 3 7)
def ex₂ : Heap Nat := exStep ex₁ (.construct true 1 4)
def ex₃ : Heap Nat := exStep ex₂ (.destroy (some 0) 3)

/-- A history: two arrays, the first handed back. -/
example : Run 8 byCopy ex₃ [(1, [4])] ∧ (ex₃.blk 0).isNone = true ∧ ex₃.made = 4 ∧ ex₃.gone = 3 := by
  have r₁ : Run 8 byCopy ex₁ [(0, [7, 7, 7])] := .step (op := .construct true 3 7) .start (by simp [Careful]) rfl
  have r₂ : Run 8 byCopy ex₂ [(1, [4]), (0, [7, 7, 7])] := .step (op := .construct true 1 4) r₁ (by simp [Careful]) rfl
  have r₃ : Run 8 byCopy ex₃ [(1, [4])] := .step (op := .destroy (some 0) 3) r₂ ⟨[7, 7, 7], by decide, rfl⟩ rfl
  exact ⟨r₃, rfl, rfl, rfl⟩

example : construct (V := Nat) 8 byCopy true Heap.empty (2 ^ 61) 7 = .ub := C99_overflow_ub (by decide)

example : (match reallocateArray 8 true ex₁ (some 0) 2 with
    | .ok (h, some p) => (h.blk p).map (fun b => (b.bytes, b.cells 0, b.cells 1, b.cells 2))
    | _ => none) = some (16, some 7, some 7, none) := rfl

example : constructRvalue 8 ⟨id, fun v => (v, 0)⟩ true (Heap.empty : Heap Nat) 5 =
    constructLvalue 8 ⟨id, fun v => (v, 0)⟩ true Heap.empty 5 := rfl

/-! The theorems at the heap of the history above: block 0 with three objects, block 1 with one. -/

theorem ex₂_run : Run 8 byCopy ex₂ [(1, [4]), (0, [7, 7, 7])] :=
  have r : Run 8 byCopy ex₁ [(0, [7, 7, 7])] := .step (op := .construct true 3 7) .start (by simp [Careful]) rfl
  .step (op := .construct true 1 4) r (by simp [Careful]) rfl

example := C99_history_partial ex₂_run
example := C99_call (mk := byCopy) (op := .destroy (some 0) 3) (C99_history_partial ex₂_run) ⟨[7, 7, 7], by decide, rfl⟩
example : ∃ h : Heap Nat, Run 8 byCopy h [] ∧ h.made = 4 ∧ (∀ p, h.blk p = none) ∧ h.made = h.gone :=
  have r : Run 8 byCopy (exStep ex₃ (.destroy (some 1) 1)) [] :=
    .step (op := .destroy (some 1) 1) (.step (op := .destroy (some 0) 3) ex₂_run ⟨[7, 7, 7], by decide, rfl⟩ rfl) ⟨[4], by decide, rfl⟩ rfl
  ⟨_, r, rfl, C99_no_leak_partial r⟩
example := C99_lvalue_args (mk := byCopy) (a := 7) rfl 3
example := C99_rvalue_args_violated (mk := byMove) (a := 7) (by decide) (n := 3) (by decide)
example := C99_result (mk := byCopy) (h := ex₂) (a := 5) (sz := 8) (n := 6) (by decide)
example := C99_destroy_null (h := ex₂) (p := some 0) (n := 3) rfl
example := C99_destroy_too_many_ub (C99_history_partial ex₂_run) (p := 0) (n := 4) rfl (by decide)
example := C99_destroy_too_few (C99_history_partial ex₂_run) (p := 0) (n := 2) rfl (by decide)
example := C100_grow_partial (C99_history_partial ex₂_run) (p := 0) (n := 5) rfl (by decide) (by decide)
example := C100_no_memory_partial (h := ex₂) (p := 0) (sz := 8) (n := 5) rfl (by decide)
example := C100_zero_violated (h := ex₂) (p := 0) (sz := 8) (n := 2 ^ 61) (mem := true) rfl (by decide)
example := C100_overflow_violated (h := ex₂) (p := 0) (sz := 8) (n := 2 ^ 61 + 1) rfl (by decide) (by decide)
example := C100_create_free (h := ex₂) (sz := 8) (n := 6) (by decide) rfl
example := C101_construct (mk := byMove) (h := ex₂) (a := 5) (sz := 8) (by decide)
example := C101_destroy (h := ex₂) (p := 1) (v := 4) rfl rfl
example := C101_pair_partial (mk := byMove) (h := ex₂) (a := 5) (sz := 8) (by decide) rfl
example := C101_rvalue_violated (c := ⟨id, fun v => (v, 0)⟩) (h := ex₂) (v := 5) (sz := 8) (by decide) (by decide)

namespace Flame.Alloc
example := C99_no_memory (sz := 8) (mk := byCopy) (h := ex₂) (n := 3) (a := 5)
example := C100_null (sz := 8) (mem := true) (h := ex₂) (n := 3)
example := C101_destroy_exact (h := ex₂) (some 1)
example := C101_null_ub (h := ex₂)
end Flame.Alloc

end Flame.Alloc
