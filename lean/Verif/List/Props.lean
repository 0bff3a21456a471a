import Verif.List.Lemmas4
import Verif.List.Spec

/-!
# Properties of `List` (C14, C15, C62)
-/

namespace Flame
open LL ListSpec
variable {α : Type}

namespace LL

/-- One call on list object `o`; every position is reached from `begin()` by `++`.  The fuel exceeds the number of nodes
ever allocated. -/
def step (o : Nat) (m : Mem α) : Op α → Res (Mem α)
  | .pushBack x => pushBack m o x
  | .pushFront x => pushFront m o x
  | .insert i x => do let it ← iterAt m o i; insert (m.fresh + 2) m o it x
  | .insertRange i xs => do let it ← iterAt m o i; insertRange (m.fresh + 2) m o it xs
  | .popBack => popBack m o
  | .popFront => popFront m o
  | .erase i => do let it ← iterAt m o i; erase m o it
  | .eraseRange i j => do
      let b ← iterAt m o i
      let e ← iterAt m o j
      eraseRange (m.fresh + 2) m o b e
  | .clean => clean (m.fresh + 2) m o

/-- Every heap node that exists belongs to `es`. -/
def Exact (m : Mem α) (es : Entries α) : Prop := ∀ n, n ∉ addrs es → m.cell (.node n) = none

theorem Post.exact {m m' : Mem α} {o : Nat} {es es' : Entries α} (h : Post m m' o es es') (he : Exact m es) : Exact m' es' := by
  intro n hn
  by_cases hn' : n ∈ addrs es
  · exact h.freed n hn' hn
  · rw [h.frame (.node n) (by simp) (by simp) (by intro k hk e; injection e with e; subst e; exact hn' hk)
      (by intro k hk e; injection e with e; subst e; exact hn hk)]
    exact he n hn'

theorem split_at {es : Entries α} {l : List α} (hl : es.map (·.2) = l) {i : Nat} (hi : i ≤ l.length) :
    ∃ A B, es = A ++ B ∧ A.length = i ∧ A.map (·.2) = l.take i ∧ B.map (·.2) = l.drop i := by
  have hlen : es.length = l.length := by rw [← hl, List.length_map]
  refine ⟨es.take i, es.drop i, (List.take_append_drop i es).symm, ?_, ?_, ?_⟩
  · rw [List.length_take]; omega
  · rw [List.map_take, hl]
  · rw [List.map_drop, hl]

end LL

/-! ## C14 -/

/-- One call inside the supported region refines the list operation, and touches no other list's nodes. -/
theorem C14_step {m : Mem α} {o : Nat} {es : Entries α} {l : List α} (h : LInv m o es) (hl : es.map (·.2) = l)
    (op : Op α) (hs : safe l op) :
    ∃ m' es', step o m op = .ok m' ∧ es'.map (·.2) = apply l op ∧ Post m m' o es es' := by
  have hlen : es.length = l.length := by rw [← hl, List.length_map]
  have hfuel : es.length < m.fresh + 2 := by have := h.len; omega
  have ne_of : 0 < l.length → es ≠ [] := by intro h0 he; subst he; simp at hlen; omega
  cases op with
  | pushBack x =>
    obtain ⟨m', a, b⟩ := pushBack_ok h x
    exact ⟨m', _, a, by simp [apply, hl], b⟩
  | pushFront x =>
    obtain ⟨m', a, b⟩ := pushFront_ok h x
    exact ⟨m', _, a, by simp [apply, hl], b⟩
  | insert i x =>
    have hs' : i ≤ l.length ∧ 0 < l.length := hs
    obtain ⟨A, B, rfl, hA, mA, mB⟩ := split_at hl hs'.1
    obtain ⟨m', a, b⟩ := insert_ok h (ne_of hs'.2) x hfuel
    refine ⟨m', _, ?_, ?_, b⟩
    · simp only [step, ← hA, iterAt_ok h (ne_of hs'.2), Res.ok_bind, a]
    · simp [apply, mA, mB]
  | insertRange i xs =>
    have hs' : i ≤ l.length ∧ 0 < l.length := hs
    obtain ⟨A, B, rfl, hA, mA, mB⟩ := split_at hl hs'.1
    obtain ⟨m', a, b⟩ := insertRange_ok h (ne_of hs'.2) xs hfuel
    refine ⟨m', _, ?_, ?_, b⟩
    · simp only [step, ← hA, iterAt_ok h (ne_of hs'.2), Res.ok_bind, a]
    · simp only [apply, List.map_append, mA, mB, number_map]
  | popBack =>
    have hs' : 2 ≤ l.length := hs
    rcases snoc_cases es with rfl | ⟨A, ⟨n2, a2⟩, rfl⟩
    · simp at hlen; omega
    · rcases snoc_cases A with rfl | ⟨A, ⟨n1, a1⟩, rfl⟩
      · simp at hlen; omega
      · obtain ⟨m', a, b⟩ := popBack_ok h
        refine ⟨m', _, a, ?_, b⟩
        rw [← hl]; simp only [apply, List.map_append, List.map_cons, List.map_nil, List.dropLast_concat]
  | popFront =>
    have hs' : 2 ≤ l.length := hs
    match es, h, hl, hlen with
    | [], _, _, hlen => simp at hlen; omega
    | [_], _, _, hlen => simp at hlen; omega
    | (n1, a1) :: (n2, a2) :: B, h, hl, _ =>
      obtain ⟨m', a, b⟩ := popFront_ok h
      exact ⟨m', _, a, by rw [← hl]; rfl, b⟩
  | erase i =>
    have hs' : i + 1 < l.length := hs
    obtain ⟨A, B, rfl, hA, mA, mB⟩ := split_at hl (i := i) (by omega)
    have hne := ne_of (by omega)
    have hB : B.length = l.length - i := by
      have := congrArg List.length mB; simpa using this
    match B, hB, mB, h, hl, hlen, hfuel, hne with
    | [], hB, _, _, _, _, _, _ => simp at hB; omega
    | [_], hB, _, _, _, _, _, _ => simp at hB; omega
    | (n, a) :: (n2, a2) :: B, hB, mB, h, hl, _, hfuel, hne =>
      have hap : (A ++ (n2, a2) :: B).map (·.2) = apply l (.erase i) := by
        simp only [apply, List.map_append, mA]
        congr 1
        have : l.drop (i + 1) = (l.drop i).tail := by simp [List.tail_drop]
        rw [this, ← mB]; rfl
      rcases snoc_cases A with rfl | ⟨A', ⟨n1, a1⟩, rfl⟩
      · simp only [List.nil_append] at *
        obtain ⟨m', a', b⟩ := popFront_ok h
        refine ⟨m', _, ?_, hap, b⟩
        have hh := h.head
        have e := iterAt_ok (A := []) h (by simp)
        simp only [List.length_nil] at e hA
        subst hA
        simp only [step, e, Res.ok_bind, hd_cons, erase, hh, if_true]
        exact a'
      · obtain ⟨m', a', b⟩ := erase_mid h
        refine ⟨m', _, ?_, hap, b⟩
        simp only [step, ← hA, iterAt_ok h hne, Res.ok_bind, hd_cons]
        exact a'
  | eraseRange i j =>
    have hs' : i ≤ j ∧ j ≤ l.length ∧ i < l.length := hs
    obtain ⟨A, B', rfl, hA, mA, mB⟩ := split_at hl (i := i) (by omega)
    have hne := ne_of (by omega)
    obtain ⟨C, B, rfl, hC, mC, mB2⟩ := split_at mB (i := j - i) (by simp; omega)
    have hCB : C ++ B ≠ [] := by
      intro he; rw [he] at mB; have := congrArg List.length mB; simp at this; omega
    obtain ⟨m', a, b⟩ := eraseRange_ok h hCB hfuel
    refine ⟨m', _, ?_, ?_, b⟩
    · have e1 := iterAt_ok h hne
      have h' : LInv m o ((A ++ C) ++ B) := by simpa using h
      have e2 := iterAt_ok h' (by simpa using hne)
      have hj : (A ++ C).length = j := by simp only [List.length_append]; omega
      rw [hA] at e1; rw [hj] at e2
      simp only [step, e1, e2, Res.ok_bind, a]
    · simp only [apply, List.map_append, mA, mB2, List.drop_drop]
      congr 2; omega
  | clean =>
    obtain ⟨m', a, b⟩ := clean_ok h hfuel
    exact ⟨m', _, a, rfl, b⟩

/-- What a caller can observe of a nonempty list: size, forward iteration, backward iteration. -/
theorem C14_observe {m : Mem α} {o : Nat} {es : Entries α} {l : List α} (h : LInv m o es) (hl : es.map (·.2) = l)
    (hne : l ≠ []) {f : Nat} (hf : m.fresh < f) :
    size f m o = .ok l.length ∧ toList f m o = .ok l ∧ toListReverse f m o = .ok l.reverse := by
  have hne' : es ≠ [] := by intro h; subst h; exact hne hl.symm
  have hfuel : es.length < f := Nat.lt_of_le_of_lt h.len hf
  subst hl
  exact ⟨by rw [size_ok h hne' hfuel, List.length_map], toList_ok h hne' hfuel, toListReverse_ok h hne' hfuel⟩

theorem LL.hist {o : Nat} : ∀ (ops : List (Op α)) {m : Mem α} {es : Entries α} {l : List α}, LInv m o es → Exact m es →
    es.map (·.2) = l → SafeHist l ops →
    ∃ m' es', runOps (step o) m ops = .ok m' ∧ LInv m' o es' ∧ Exact m' es' ∧ es'.map (·.2) = ListSpec.run l ops := by
  intro ops
  induction ops with
  | nil => intro m es l h he hl _; exact ⟨m, es, rfl, h, he, hl⟩
  | cons op ops ih =>
    intro m es l h he hl hs
    obtain ⟨m1, es1, a, b, c⟩ := C14_step h hl op hs.1
    obtain ⟨m2, es2, d, e, f, g⟩ := ih c.inv (c.exact he) b hs.2
    exact ⟨m2, es2, by rw [runOps_cons_ok a]; exact d, e, f, g⟩

theorem LL.new_exact (o : Nat) : Exact (construct (emptyMem : Mem α) o) [] := by
  intro n _; simp [construct, setTail, setHead, store, emptyMem]

/-- **C14 (partial).** Every history of supported calls on a new list: no undefined behaviour, and afterwards size,
forward and backward iteration give exactly the specified sequence (when it is nonempty).
Full statement: the same for `ValidHist` and for empty results; it is false, see the `_violated` theorems. -/
theorem C14_history_partial (o : Nat) (ops : List (Op α)) (hs : SafeHist [] ops) :
    ∃ m', runOps (step o) (construct emptyMem o) ops = .ok m' ∧
      (ListSpec.run [] ops ≠ [] → ∀ f, m'.fresh < f → size f m' o = .ok (ListSpec.run [] ops).length ∧
        toList f m' o = .ok (ListSpec.run [] ops) ∧ toListReverse f m' o = .ok (ListSpec.run [] ops).reverse) := by
  obtain ⟨m', es', a, b, _, d⟩ := LL.hist (o := o) ops (construct_ok emptyMem o) (LL.new_exact o) rfl hs
  exact ⟨m', a, fun hne f hf => C14_observe b d hne hf⟩

example : SafeHist ([] : List Nat) [.pushBack 1, .pushFront 0, .insertRange 1 [7, 8, 9], .erase 0, .eraseRange 1 3, .insert 2 5,
    .popBack, .popFront, .eraseRange 0 1, .pushBack 4] := by decide

example : ListSpec.run ([] : List Nat) [.pushBack 1, .pushFront 0, .insertRange 1 [7, 8, 9], .erase 0, .insert 4 5] = [7, 8, 9, 1, 5] := by
  decide

/-- Two lists in one memory: a supported call on one leaves the other one's sequence and links intact. -/
theorem C14_independent {m : Mem α} {o s : Nat} {es ss : Entries α} {l : List α} (h : LInv m o es) (hl : es.map (·.2) = l)
    (h2 : LInv m s ss) (hne : s ≠ o) (dj : Disj ss es) (op : Op α) (hs : safe l op) :
    ∃ m' es', step o m op = .ok m' ∧ es'.map (·.2) = apply l op ∧ LInv m' o es' ∧ LInv m' s ss ∧ Disj ss es' := by
  obtain ⟨m', es', a, b, c⟩ := C14_step h hl op hs
  obtain ⟨d, e⟩ := c.other h2 hne dj
  exact ⟨m', es', a, b, c.inv, d, e⟩

/-! ### Where C14 fails -/

/-- Size and iteration over any empty list are undefined: `begin()` is null, `end()` is not. -/
theorem C14_empty_violated {m : Mem α} {o : Nat} (h : LInv m o []) (hn : m.cell .null = none) (f : Nat) :
    size (f + 1) m o = .ub ∧ toList (f + 1) m o = .ub ∧ toListReverse (f + 1) m o = .ub := by
  have h3 := h.head; have h4 := h.tail
  simp only [hd_nil, lst_nil] at h3 h4
  simp [size, toList, toListReverse, sizeLoop, walk, walkBack, h3, h4, load, hn]

/-- Inserting anything into an empty list at `begin()` is undefined. -/
theorem C14_insert_empty_violated {m : Mem α} {o : Nat} (h : LInv m o []) (hn : m.cell .null = none) (it : Ptr) (x : α) (xs : List α)
    (f : Nat) : LL.insert (f + 1) m o it x = .ub ∧ insertRange (f + 1) m o it (x :: xs) = .ub := by
  have hs := (C14_empty_violated h hn f).1
  refine ⟨by simp [LL.insert, hs], ?_⟩
  obtain ⟨m1, c1, c2, c3, c4, c5, c6⟩ := chainLoop_ok xs (m := alloc m x) (k := m.fresh) (a := x) (p := .null)
    (by simp [alloc]) (by simp [alloc])
  have h3 : m1.head o = .null := by rw [c4]; exact h.head
  have hn1 : m1.cell .null = none := by rw [c6 _ (by simp) (by simp)]; simpa [alloc] using hn
  have hs1 : size (f + 1) m1 o = .ub := by simp [size, sizeLoop, h3, load, hn1]
  simp [insertRange, splice, c1, hs1]

/-- Removing the only element with `popBack` leaves `head` dangling: size, iteration and even destruction are undefined. -/
theorem C14_popBack_last_violated {m : Mem α} {o n : Nat} {a : α} (h : LInv m o [(n, a)]) :
    ∃ m', popBack m o = .ok m' ∧ ∀ f, size (f + 1) m' o = .ub ∧ toList (f + 1) m' o = .ub ∧ clean (f + 1) m' o = .ub := by
  have h1 := h.first; have h2 := h.last; have h3 := h.head; have h4 := h.tail
  obtain ⟨c, _⟩ := h.seg
  simp only [hd_cons, lst_cons, hd_nil, lst_nil] at h1 h2 h3 h4 c
  simp only [popBack, load, h4, c, Res.ok_bind, ne_eq, reduceCtorEq, not_false_eq_true, if_true, setTail, setNext, h1, store, free,
    updateTailLinks, setPrev, h2, if_false]
  refine ⟨_, rfl, fun f => ?_⟩
  simp [size, toList, clean, cleanLoop, sizeLoop, walk, h3, load]

/-- Removing the only element with `popFront` leaves `tail` dangling: appending or iterating backwards is undefined. -/
theorem C14_popFront_last_violated {m : Mem α} {o n : Nat} {a : α} (h : LInv m o [(n, a)]) (hlt : n < m.fresh) :
    ∃ m', popFront m o = .ok m' ∧ (∀ x, pushBack m' o x = .ub) ∧ popBack m' o = .ub ∧
      ∀ f, size (f + 1) m' o = .ok 0 ∧ toListReverse (f + 1) m' o = .ub := by
  have h1 := h.first; have h2 := h.last; have h3 := h.head; have h4 := h.tail
  obtain ⟨c, _⟩ := h.seg
  simp only [hd_cons, lst_cons, hd_nil, lst_nil] at h1 h2 h3 h4 c
  simp only [popFront, load, h3, c, Res.ok_bind, ne_eq, reduceCtorEq, not_false_eq_true, if_true, setHead, setNext, h1, store, free,
    updateHeadLinks, setPrev, h2, if_false]
  have hne : n ≠ m.fresh := by omega
  refine ⟨_, rfl, fun x => ?_, ?_, fun f => ⟨?_, ?_⟩⟩
  · simp [pushBack, alloc, setPrev, setNext, h4, store, hne]
  · simp [popBack, load, h4]
  · simp [size, sizeLoop]
  · simp [toListReverse, walkBack, h4, load]

/-- Erasing the last of several elements by iterator leaves `tail` dangling although forward iteration looks right. -/
theorem C14_erase_last_violated {m : Mem α} {o : Nat} {A : Entries α} {n1 n2 : Nat} {a1 a2 : α}
    (h : LInv m o (A ++ [(n1, a1)] ++ [(n2, a2)])) :
    ∃ m', erase m o (.node n2) = .ok m' ∧ (∀ x, pushBack m' o x = .ub) ∧ popBack m' o = .ub ∧
      ∀ f, toListReverse (f + 1) m' o = .ub := by
  have hh := head_not_in (n := n2) h (by simp) (by simp)
  have h2 := h.last; have h4 := h.tail; have h6 := h.seg; have h7 := h.nodup; have h8 := h.lt n2 (by simp)
  have hhd : m.head o ≠ .null := by rw [h.head]; exact hd_ne_null (by simp)
  simp only [seg_append, Seg, hd_cons, hd_nil, and_true, lst_snoc] at h6
  obtain ⟨⟨_, c1⟩, c2⟩ := h6
  have hn12 : n1 ≠ n2 := by
    simp only [addrs_append, addrs_cons, addrs_nil, List.append_assoc] at h7
    have := (List.nodup_append.mp (List.nodup_append.mp h7).2.1).2.2 n1 (by simp) n2 (by simp)
    exact this
  simp only [lst_snoc] at h2 h4
  have hne : n2 ≠ m.fresh := by omega
  simp only [erase, if_neg (Ne.symm hh), reduceCtorEq, if_false, load, c2, Res.ok_bind, setNext, c1, store, setPrev, h2, free,
    Ptr.node.injEq, Ne.symm hn12]
  refine ⟨_, rfl, fun x => ?_, ?_, fun f => ?_⟩
  · simp [pushBack, alloc, setPrev, setNext, h4, store, hne, hhd]
  · simp [popBack, load, h4]
  · simp [toListReverse, walkBack, h4, load]

/-- Popping from an empty list is undefined (the caller's fault by `valid`, listed for completeness). -/
theorem C14_popBack_empty_violated {m : Mem α} {o : Nat} (h : LInv m o []) (hn : m.cell .null = none) :
    popBack m o = .ub ∧ popFront m o = .ub := by
  have h3 := h.head; have h4 := h.tail
  simp only [hd_nil, lst_nil] at h3 h4
  simp [popBack, popFront, load, h3, h4, hn]

/-- Erasing the empty range `[end(), end())` of any nonempty list never terminates: it pops every element and then spins on
the front sentinel. -/
theorem C14_erase_empty_range_diverges {m : Mem α} {o : Nat} {es : Entries α} (h : LInv m o es) (hne : es ≠ []) (f : Nat) :
    eraseRange f m o (.last o) (.last o) = .loop := by
  have stuck : ∀ (f : Nat) (m : Mem α) (c : Node α), m.tail o = .first o → m.cell (.first o) = some c → c.prev = .null →
      popBackUntil o (.last o) f m = .loop := by
    intro f
    induction f with
    | zero => intros; rfl
    | succ f ih =>
      intro m c h1 h2 h3
      simp only [popBackUntil, h1, reduceCtorEq, if_false, popBack, load, h2, Res.ok_bind, h3, ne_eq, not_true_eq_false]
      exact ih m c h1 h2 h3
  have key : ∀ (f : Nat) (m : Mem α) (es : Entries α), LInv m o es → es ≠ [] → popBackUntil o (.last o) f m = .loop := by
    intro f
    induction f with
    | zero => intros; rfl
    | succ f ih =>
      intro m es h hne
      rcases snoc_cases es with rfl | ⟨A, ⟨n2, a2⟩, rfl⟩
      · exact absurd rfl hne
      · have ht := h.tail
        rw [lst_snoc] at ht
        rcases snoc_cases A with rfl | ⟨A, ⟨n1, a1⟩, rfl⟩
        · have h1 := h.first; have h2 := h.last
          obtain ⟨c, _⟩ := h.seg
          simp only [hd_cons, lst_cons, hd_nil, lst_nil, List.nil_append] at h1 h2 c
          simp only [popBackUntil, ht, reduceCtorEq, if_false, popBack, load, c, Res.ok_bind, ne_eq, not_false_eq_true, if_true,
            setTail, setNext, h1, store, free, updateTailLinks, setPrev, h2]
          exact stuck f _ ⟨.null, .last o, none⟩ (by simp) (by simp) rfl
        · obtain ⟨m1, a, b⟩ := popBack_ok h
          simp only [popBackUntil, ht, reduceCtorEq, if_false, a, Res.ok_bind]
          exact ih m1 _ b.inv (by simp)
  obtain ⟨n, _, hn⟩ := hd_mem hne .null
  have hh : m.head o ≠ .last o := by rw [h.head, hn]; simp
  simp only [eraseRange, Ne.symm hh, false_and, if_false, if_true, key f m es h hne, Res.loop_bind]

/-- The full statement of C14 is false: whatever calls left a list with one element, removing it from the front succeeds and appending
then is undefined. -/
theorem C14_history_violated (o : Nat) {ops : List (Op α)} (hs : SafeHist [] ops) {x : α} (h1 : ListSpec.run [] ops = [x]) (y : α) :
    (∃ m', runOps (step o) (construct emptyMem o) (ops ++ [.popFront]) = .ok m') ∧
      runOps (step o) (construct emptyMem o) (ops ++ [.popFront, .pushBack y]) = .ub := by
  obtain ⟨m', es', a, b, _, d⟩ := LL.hist (o := o) ops (construct_ok emptyMem o) (LL.new_exact o) rfl hs
  rw [List.map_nil, h1] at d
  match es', d with
  | [(n, z)], _ =>
    obtain ⟨m2, c, e, _⟩ := C14_popFront_last_violated b (b.lt n (by simp))
    refine ⟨⟨m2, ?_⟩, ?_⟩
    · rw [runOps_append a]
      simp only [runOps, step, c]
    · rw [runOps_append a]
      simp only [runOps, step, c, e]

/-- Such a history, and it stays within what the calls accept. -/
example : SafeHist ([] : List Nat) [.pushBack 1, .pushFront 0, .popBack] ∧ ListSpec.run [] [Op.pushBack 1, .pushFront 0, .popBack] = [0] ∧
    ValidHist [] [Op.pushBack 1, .pushFront 0, .popBack, .popFront, .pushBack 7] := by decide

/-! ## C62: nodes are released -/

/-- **C62.** After any supported history on a new list, destroying the list releases every node (and never a node twice). -/
theorem C62_no_leak_partial (o : Nat) (ops : List (Op α)) (hs : SafeHist [] ops) :
    ∃ m' m'', runOps (step o) (construct emptyMem o) ops = .ok m' ∧ (∀ f, m'.fresh < f → clean f m' o = .ok m'') ∧
      ∀ n, m''.cell (.node n) = none := by
  obtain ⟨m', es', a, b, c, _⟩ := LL.hist (o := o) ops (construct_ok emptyMem o) (LL.new_exact o) rfl hs
  have key : ∀ f, m'.fresh < f → ∃ m'', clean f m' o = .ok m'' ∧ Post m' m'' o es' [] := fun f hf =>
    clean_ok b (Nat.lt_of_le_of_lt b.len hf)
  obtain ⟨m'', d, e⟩ := key (m'.fresh + 1) (by omega)
  refine ⟨m', m'', a, fun f hf => ?_, fun n => e.exact c n (by simp)⟩
  -- more fuel does not change the outcome
  have mono : ∀ (g : Nat) (mm : Mem α) (p : Ptr) (r : Mem α) (k : Nat), cleanLoop mm o g p = .ok r → cleanLoop mm o (g + k) p = .ok r := by
    intro g
    induction g with
    | zero => intro mm p r k h; simp [cleanLoop] at h
    | succ g ih =>
      intro mm p r k h
      rw [show g + 1 + k = (g + k) + 1 from by omega]
      simp only [cleanLoop] at h ⊢
      split at h
      · rename_i hc; rw [if_pos hc]; exact h
      · rename_i hc; rw [if_neg hc]
        simp only [Res.bind_eq_ok] at h ⊢
        obtain ⟨c, h1, m1, h2, h3⟩ := h
        exact ⟨c, h1, m1, h2, ih _ _ _ k h3⟩
  simp only [clean, Res.bind_eq_ok] at d ⊢
  obtain ⟨r, h1, h2⟩ := d
  obtain ⟨k, rfl⟩ : ∃ k, f = m'.fresh + 1 + k := ⟨f - (m'.fresh + 1), by omega⟩
  exact ⟨r, mono _ _ _ _ k h1, h2⟩

example : SafeHist ([] : List Nat) [.pushBack 1, .pushFront 0, .insertRange 1 [7, 8, 9], .erase 0, .eraseRange 1 3] := by decide

/-- C62 fails for the full range of valid histories: destroying a list emptied by `popBack` is undefined, whatever calls left its one
element. -/
theorem C62_violated (o : Nat) {ops : List (Op α)} (hs : SafeHist [] ops) {x : α} (h1 : ListSpec.run [] ops = [x]) :
    ∃ m', runOps (step o) (construct emptyMem o) (ops ++ [.popBack]) = .ok m' ∧ ∀ f, clean (f + 1) m' o = .ub := by
  obtain ⟨m', es', a, b, _, d⟩ := LL.hist (o := o) ops (construct_ok emptyMem o) (LL.new_exact o) rfl hs
  rw [List.map_nil, h1] at d
  match es', d with
  | [(n, y)], _ =>
    obtain ⟨m2, c, e⟩ := C14_popBack_last_violated b
    refine ⟨m2, ?_, fun f => (e f).2.2⟩
    rw [runOps_append a]
    simp only [runOps, step, c]

example : SafeHist ([] : List Nat) [.pushBack 1, .pushFront 0, .popBack] ∧ ListSpec.run [] [Op.pushBack 1, .pushFront 0, .popBack] = [0] := by decide

/-! ## C15 -/

/-- **C15 (partial), copy constructor.** From a nonempty list: both lists then hold the source's sequence in disjoint nodes,
so that a later change of one is not seen in the other (`C14_independent`). -/
theorem C15_copy_partial {m : Mem α} {s d : Nat} {es : Entries α} {l : List α} (hs : LInv m s es) (hl : es.map (·.2) = l)
    (hsd : s ≠ d) (hne : l ≠ []) {f : Nat} (hf : m.fresh < f) :
    ∃ m' ds, copyCtor f m d s = .ok m' ∧ LInv m' d ds ∧ ds.map (·.2) = l ∧ LInv m' s es ∧ Disj es ds ∧
      (∀ g, m'.fresh < g → toList g m' d = .ok l ∧ toList g m' s = .ok l) := by
  have hne' : es ≠ [] := by intro h; subst h; exact hne hl.symm
  obtain ⟨m', N, a, b, c, e, g⟩ := copyCtor_ok hs hsd hne' (Nat.lt_of_le_of_lt hs.len hf)
  rw [hl] at b
  exact ⟨m', N, a, c.inv, b, e, g, fun k hk => ⟨(C14_observe c.inv b hne hk).2.1, (C14_observe e hl hne hk).2.1⟩⟩

/-- **C15 (partial), move constructor.** From a nonempty list: the new list holds the sequence and the source is an empty
list again (ready for `pushBack`). -/
theorem C15_move_partial {m : Mem α} {s d : Nat} {es : Entries α} {l : List α} (hs : LInv m s es) (hl : es.map (·.2) = l)
    (hsd : s ≠ d) (hne : l ≠ []) :
    ∃ m', moveCtor m d s = .ok m' ∧ LInv m' d es ∧ LInv m' s [] ∧
      (∀ g, m'.fresh < g → toList g m' d = .ok l ∧ toListReverse g m' d = .ok l.reverse) := by
  have hne' : es ≠ [] := by intro h; subst h; exact hne hl.symm
  obtain ⟨m', a, b, c, e, _⟩ := moveCtor_ok hs hsd hne'
  exact ⟨m', a, b, c, fun g hg => (C14_observe b hl hne hg).2⟩

/-- **C15 (partial), move assignment** between distinct lists, from a nonempty list: the target's old nodes are released, the
target holds the sequence, the source is empty. -/
theorem C15_moveAssign_partial {m : Mem α} {s d : Nat} {es ds : Entries α} {l : List α} (hs : LInv m s es) (hd : LInv m d ds)
    (hl : es.map (·.2) = l) (hsd : s ≠ d) (dj : Disj es ds) (hne : l ≠ []) {f : Nat} (hf : m.fresh < f) :
    ∃ m', moveAssign f m d s = .ok m' ∧ LInv m' d es ∧ LInv m' s [] ∧ (∀ n ∈ addrs ds, m'.cell (.node n) = none) ∧
      (∀ g, m'.fresh < g → toList g m' d = .ok l ∧ toListReverse g m' d = .ok l.reverse) := by
  have hne' : es ≠ [] := by intro h; subst h; exact hne hl.symm
  obtain ⟨m', a, b, c, e, g, _⟩ := moveAssign_ok hs hd hsd dj hne' (Nat.lt_of_le_of_lt hd.len hf)
  exact ⟨m', a, b, c, g, fun g hg => (C14_observe b hl hne hg).2⟩

/-- Premises of the copy/move theorems are met: a list with two elements next to another list. -/
example : ∃ (m : Mem Nat) (es ds : Entries Nat), LInv m 0 es ∧ LInv m 1 ds ∧ es.map (·.2) = [1, 2] ∧ ds.map (·.2) = [3] ∧ Disj es ds := by
  obtain ⟨m1, _, p1⟩ := pushBack_ok (construct_ok (emptyMem : Mem Nat) 0) 1
  obtain ⟨m2, _, p2⟩ := pushBack_ok p1.inv 2
  have q0 := construct_other (d := 1) p2.inv (by decide)
  obtain ⟨m3, _, p3⟩ := pushBack_ok (construct_ok m2 1) 3
  obtain ⟨o1, o2⟩ := p3.other q0 (by decide) (by intro n _ h; simp at h)
  exact ⟨m3, _, _, o1, p3.inv, rfl, rfl, o2⟩

theorem LL.pushAll_ok {d : Nat} : ∀ (xs : List α) {m : Mem α} {D : Entries α}, LInv m d D →
    ∃ m' N, pushAll d m xs = .ok m' ∧ N.map (·.2) = xs ∧ Post m m' d D (D ++ N) := by
  intro xs
  induction xs with
  | nil => intro m D h; exact ⟨m, [], rfl, rfl, by simpa using Post.refl h⟩
  | cons x xs ih =>
    intro m D h
    obtain ⟨m1, p1, p2⟩ := pushBack_ok h x
    obtain ⟨m2, N, q1, q2, q3⟩ := ih p2.inv
    refine ⟨m2, (m.fresh, x) :: N, by simp [pushAll, p1, q1], by simp [q2], ?_⟩
    have := p2.trans q3 (Or.inr (by intro n hn; rw [addrs_append]; exact List.mem_append_left _ hn))
    simpa using this

/-- **C15 (partial), construction from an initializer list** that is not empty: the list holds the elements in order, and every other list
is as it was. -/
theorem C15_init_partial {m : Mem α} {d : Nat} {xs : List α} (hne : xs ≠ []) :
    ∃ m' ds, ofInit m d xs = .ok m' ∧ LInv m' d ds ∧ ds.map (·.2) = xs ∧
      (∀ g, m'.fresh < g → size g m' d = .ok xs.length ∧ toList g m' d = .ok xs ∧ toListReverse g m' d = .ok xs.reverse) ∧
      (∀ s es, s ≠ d → LInv m s es → LInv m' s es ∧ Disj es ds) := by
  have hc := construct_ok m d
  obtain ⟨m', N, a, b, c⟩ := LL.pushAll_ok xs hc
  rw [List.nil_append] at c
  have hN : N ≠ [] := by intro h; subst h; exact hne b.symm
  refine ⟨m', N, ?_, c.inv, b, fun g hg => C14_observe c.inv b hne hg, fun s es hsd hs => ?_⟩
  · simp only [ofInit, a, Res.ok_bind]; exact updateHeadLinks_id c.inv hN
  · exact c.other (construct_other hs hsd) hsd (by intro n _ h; simp at h)

/-- **C15 violated**: constructing a list from an empty initializer list is undefined. -/
theorem C15_init_empty_violated {m : Mem α} {d : Nat} (hn : m.cell .null = none) : ofInit m d [] = .ub := by
  simp [ofInit, pushAll, construct, setTail, setHead, store, updateHeadLinks, setNext, setPrev, load, hn]

/-- **C14 (partial)**: `+=` with a range appends its elements in order to a list that is not empty. -/
theorem C14_append_range_partial {m : Mem α} {o : Nat} {es : Entries α} {l : List α} (h : LInv m o es) (hl : es.map (·.2) = l)
    (hne : l ≠ []) (xs : List α) {f : Nat} (hf : m.fresh < f) :
    ∃ m' es', addRange f m o xs = .ok m' ∧ es'.map (·.2) = l ++ xs ∧ Post m m' o es es' := by
  have hne' : es ≠ [] := by intro h; subst h; exact hne hl.symm
  obtain ⟨m', a, b⟩ := insertRange_ok (A := es) (B := []) (by simpa using h) (by simpa using hne') xs
    (f := f) (by simpa using Nat.lt_of_le_of_lt h.len hf)
  refine ⟨m', _, a, ?_, by simpa using b⟩
  simp [number_map, hl]

/-- **C14 violated**: appending a range that is not empty to an empty list is undefined. -/
theorem C14_append_range_violated {m : Mem α} {o : Nat} (h : LInv m o []) (hn : m.cell .null = none) (x : α) (xs : List α) (f : Nat) :
    addRange (f + 1) m o (x :: xs) = .ub := (C14_insert_empty_violated h hn _ x xs f).2

/-- **C15 (partial), clone** of a list that is not empty: the result holds the same sequence in nodes of its own, and the source is
unchanged. -/
theorem C15_clone_partial {m : Mem α} {s d t : Nat} {es : Entries α} {l : List α} (hs : LInv m s es) (hl : es.map (·.2) = l)
    (hst : s ≠ t) (hsd : s ≠ d) (htd : t ≠ d) (hne : l ≠ []) {f : Nat} (hf : m.fresh < f) :
    ∃ m' ds, clone f m d t s = .ok m' ∧ LInv m' d ds ∧ ds.map (·.2) = l ∧ LInv m' s es ∧ Disj es ds := by
  obtain ⟨m1, N, a, b, c, e, g, -⟩ := C15_copy_partial hs hl hst hne hf
  have hN : N ≠ [] := by intro h; subst h; exact hne c.symm
  obtain ⟨m2, p1, p2, p3, p4, p5, p6⟩ := moveCtor_ok b htd hN
  obtain ⟨m3, q1, q2⟩ := clean_ok p3 (f := f) (by simp; omega)
  have hs2 : LInv m2 s es := by
    refine e.mono (by omega) (p5 s hsd hst).1 (p5 s hsd hst).2 ?_ ?_ ?_
    · exact p6 _ (by simpa using hsd) (by simp) (by simpa using hst) (by simp) (by simp)
    · exact p6 _ (by simp) (by simpa using hsd) (by simp) (by simpa using hst) (by simp)
    · intro n hn
      exact p6 _ (by simp) (by simp) (by simp) (by simp) (by intro k hk he; injection he with he; subst he; exact g n hn hk)
  exact ⟨m3, N, by simp [clone, a, p1, q1], (q2.other p2 (Ne.symm htd) (by intro n _ h; simp at h)).1, c,
    (q2.other hs2 hst (by intro n _ h; simp at h)).1, g⟩

/-- A list built from an initializer list meets the hypotheses of the results about `+=` and `clone`; a fresh memory those of
`C15_init_empty_violated`. -/
example : ∃ (m : Mem Nat) (es : Entries Nat), LInv m 0 es ∧ es.map (·.2) = [4, 5, 4] :=
  match C15_init_partial (m := emptyMem) (d := 0) (xs := [4, 5, 4]) (by simp) with
  | ⟨m, es, _, h, e, _⟩ => ⟨m, es, h, e⟩

example : (emptyMem : Mem Nat).cell .null = none := rfl

/-- Copying or moving from an empty list is undefined. -/
theorem C15_empty_violated {m : Mem α} {s d : Nat} (hs : LInv m s []) (hsd : s ≠ d) (hn : m.cell .null = none) (f : Nat) :
    copyCtor (f + 1) m d s = .ub ∧ moveCtor m d s = .ub := by
  have h1 := hs.first; have h2 := hs.last; have h3 := hs.head; have h4 := hs.tail
  simp only [hd_nil, lst_nil] at h1 h2 h3 h4
  have hds : d ≠ s := Ne.symm hsd
  refine ⟨?_, ?_⟩
  · have := (C14_empty_violated (construct_other hs hsd) (by simp [construct, setTail, setHead, store, hn]) f).1
    simp [copyCtor, this]
  · simp [moveCtor, construct, setTail, setHead, store, hsd, hds, cleanLinks, setPrev, setNext, h1, h2, h3, updateLinks,
      updateHeadLinks, hn]

/-- Move-assigning from an empty list, or a list to itself, is undefined. -/
theorem C15_moveAssign_violated {m : Mem α} {d : Nat} {ds : Entries α} (hd : LInv m d ds) (hn : m.cell .null = none)
    {f : Nat} (hf : m.fresh < f) :
    moveAssign f m d d = .ub ∧ ∀ s, s ≠ d → LInv m s [] → moveAssign f m d s = .ub := by
  obtain ⟨m0, z1, z2⟩ := clean_ok hd (Nat.lt_of_le_of_lt hd.len hf)
  have hn0 : m0.cell .null = none := by rw [z2.frame _ (by simp) (by simp) (by simp) (by simp)]; exact hn
  have h1 := z2.inv.first; have h3 := z2.inv.head
  simp only [hd_nil] at h1 h3
  refine ⟨?_, fun s hsd hs => ?_⟩
  · simp [moveAssign, z1, setTail, setHead, h3, updateLinks, updateHeadLinks, setNext, setPrev, h1, store, hn0]
  · have h3s : m0.head s = .null := by rw [(z2.heads s hsd).1, hs.head]; rfl
    simp [moveAssign, z1, setTail, setHead, h3s, updateLinks, updateHeadLinks, setNext, setPrev, h1, store, hn0]

/-! The theorems at a memory with the lists `[1, 2]`, `[3]` and an empty one. -/

namespace LL

/-- Three list objects in one memory. -/
def exLists : Res (Mem Nat) := do
  let m ← pushBack (construct emptyMem 0) 0 1
  let m ← pushBack m 0 2
  let m ← pushBack (construct m 1) 1 3
  .ok (construct m 2)

theorem exLists_ok : ∃ m, exLists = .ok m ∧ LInv m 0 [(0, 1), (1, 2)] ∧ LInv m 1 [(2, 3)] ∧ LInv m 2 [] ∧
    Disj [(0, 1), (1, 2)] [(2, 3)] ∧ m.cell .null = none ∧ m.fresh = 3 := by
  obtain ⟨m1, e1, p1⟩ := pushBack_ok (construct_ok (emptyMem : Mem Nat) 0) 1
  obtain ⟨m2, e2, p2⟩ := pushBack_ok p1.inv 2
  have q0 := construct_other (d := 1) p2.inv (by decide)
  obtain ⟨m3, e3, p3⟩ := pushBack_ok (construct_ok m2 1) 3
  obtain ⟨o1, o2⟩ := p3.other q0 (by decide) (by intro n _ h; simp at h)
  have f1 : m1 = _ := (Res.ok.inj (e1.symm.trans rfl))
  subst f1
  have f2 : m2 = _ := (Res.ok.inj (e2.symm.trans rfl))
  subst f2
  have f3 : m3 = _ := (Res.ok.inj (e3.symm.trans rfl))
  subst f3
  exact ⟨_, rfl, construct_other (d := 2) o1 (by decide), construct_other (d := 2) p3.inv (by decide), construct_ok _ 2, o2, rfl, rfl⟩

def exMem : Mem Nat := match exLists with
  | .ok m => m
  | _ => emptyMem

theorem exMem_ok : LInv exMem 0 [(0, 1), (1, 2)] ∧ LInv exMem 1 [(2, 3)] ∧ LInv exMem 2 [] ∧ Disj [(0, 1), (1, 2)] [(2, 3)] ∧
    exMem.cell .null = none ∧ exMem.fresh = 3 := by
  obtain ⟨m, e, h⟩ := exLists_ok
  have : exMem = m := by simp [exMem, e]
  rw [this]
  exact h

end LL

example := C14_step exMem_ok.1 rfl (.insertRange 1 [7, 8]) (by decide)
example := C14_observe exMem_ok.1 rfl (by decide) (f := 4) (by decide)
example := C14_independent exMem_ok.1 rfl exMem_ok.2.1 (by decide) (fun n h h' => exMem_ok.2.2.2.1 n h' h) (.erase 0) (by decide)
example := C14_empty_violated exMem_ok.2.2.1 exMem_ok.2.2.2.2.1 9
example := C14_insert_empty_violated exMem_ok.2.2.1 exMem_ok.2.2.2.2.1 (.last 2) 5 [6] 9
example := C14_popBack_last_violated exMem_ok.2.1
example := C14_popFront_last_violated exMem_ok.2.1 (by decide)
example := C14_erase_last_violated (A := []) exMem_ok.1
example := C14_erase_empty_range_diverges exMem_ok.1 (by decide) 9
example := C15_copy_partial (d := 5) exMem_ok.1 rfl (by decide) (by decide) (f := 4) (by decide)
example := C15_move_partial (d := 5) exMem_ok.1 rfl (by decide) (by decide)
example := C15_init_empty_violated (d := 5) exMem_ok.2.2.2.2.1
example := C14_append_range_partial exMem_ok.1 rfl (by decide) [7, 8] (f := 4) (by decide)
example := C14_append_range_violated exMem_ok.2.2.1 exMem_ok.2.2.2.2.1 7 [8] 9
example := C15_empty_violated (d := 5) exMem_ok.2.2.1 (by decide) exMem_ok.2.2.2.2.1 9
example := C15_moveAssign_violated exMem_ok.1 exMem_ok.2.2.2.2.1 (f := 4) (by decide)

end Flame
