import Verif.List.Props

/-!
# A `List` used at its two ends

What the list is in after its only element was removed by `popFront` (`tail` dangles) or by `popBack` (`head` dangles), and what the
calls at the ends (List.hpp 614-630, 668-684, 873-886, 888-901, 520-533) do from there.
-/

namespace Flame.LL
variable {α : Type}

/-- The list holds `es` as seen from its head; `tail` points to a node that was destroyed. -/
structure FInv (m : Mem α) (o : Nat) (es : Entries α) : Prop where
  first : m.cell (.first o) = some ⟨.null, hd es (.last o), none⟩
  last : m.cell (.last o) = some ⟨lst (.first o) es, .null, none⟩
  head : m.head o = hd es (.last o)
  tail : ∃ t, m.tail o = .node t ∧ t < m.fresh ∧ t ∉ addrs es
  seg : Seg m (.first o) es (.last o)
  nodup : (addrs es).Nodup
  lt : ∀ n ∈ addrs es, n < m.fresh
  len : es.length ≤ m.fresh
  exact : Exact m es

/-- The list holds `es` as seen from its tail; `head` points to a node that was destroyed. -/
structure BInv (m : Mem α) (o : Nat) (es : Entries α) : Prop where
  first : m.cell (.first o) = some ⟨.null, hd es (.last o), none⟩
  last : m.cell (.last o) = some ⟨lst (.first o) es, .null, none⟩
  head : ∃ t, m.head o = .node t ∧ t < m.fresh ∧ t ∉ addrs es
  tail : m.tail o = lst (.first o) es
  seg : Seg m (.first o) es (.last o)
  nodup : (addrs es).Nodup
  lt : ∀ n ∈ addrs es, n < m.fresh
  len : es.length ≤ m.fresh
  exact : Exact m es

theorem LInv.popFront_only {m : Mem α} {o n : Nat} {a : α} (h : LInv m o [(n, a)]) (hx : Exact m [(n, a)]) :
    ∃ m', popFront m o = .ok m' ∧ FInv m' o [] := by
  have h1 := h.first; have h2 := h.last; have h3 := h.head; have h4 := h.tail
  have h8 := h.lt n (by simp)
  obtain ⟨c, _⟩ := h.seg
  simp only [hd_cons, lst_cons, hd_nil, lst_nil] at h1 h2 h3 h4 c
  simp only [popFront, load, h3, c, Res.ok_bind, ne_eq, reduceCtorEq, not_false_eq_true, if_true, setHead, setNext, h1, store, free,
    updateHeadLinks, setPrev, h2, if_false]
  refine ⟨_, rfl, ⟨by simp, by simp, by simp, ⟨n, h4, h8, by simp⟩, trivial, by simp, by simp, by simp, ?_⟩⟩
  intro k _
  by_cases hk : k = n
  · simp [hk]
  · simp [hk, hx k (by simpa using hk)]

theorem LInv.popBack_only {m : Mem α} {o n : Nat} {a : α} (h : LInv m o [(n, a)]) (hx : Exact m [(n, a)]) :
    ∃ m', popBack m o = .ok m' ∧ BInv m' o [] := by
  have h1 := h.first; have h2 := h.last; have h3 := h.head; have h4 := h.tail
  have h8 := h.lt n (by simp)
  obtain ⟨c, _⟩ := h.seg
  simp only [hd_cons, lst_cons, hd_nil, lst_nil] at h1 h2 h3 h4 c
  simp only [popBack, load, h4, c, Res.ok_bind, ne_eq, reduceCtorEq, not_false_eq_true, if_true, setTail, setNext, h1, store, free,
    updateTailLinks, setPrev, h2, if_false]
  refine ⟨_, rfl, ⟨by simp, by simp, ⟨n, h3, h8, by simp⟩, by simp, trivial, by simp, by simp, by simp, ?_⟩⟩
  intro k _
  by_cases hk : k = n
  · simp [hk]
  · simp [hk, hx k (by simpa using hk)]

theorem FInv.pushFront {m : Mem α} {o : Nat} {es : Entries α} (h : FInv m o es) (x : α) :
    ∃ m', LL.pushFront m o x = .ok m' ∧ FInv m' o ((m.fresh, x) :: es) := by
  have hfresh : m.fresh ∉ addrs es := fun hm => Nat.lt_irrefl _ (h.lt _ hm)
  have h1 := h.first; have h2 := h.last; have h3 := h.head; have h5 := h.len
  have h6 := h.seg; have h7 := h.nodup; have h8 := h.lt; have hx := h.exact
  obtain ⟨t, h4, ht, ht'⟩ := h.tail
  have hlt : ∀ k ∈ addrs ((m.fresh, x) :: es), k < m.fresh + 1 := by
    intro k hk
    simp only [addrs_cons, List.mem_cons] at hk
    rcases hk with hk | hk
    · omega
    · have := h8 k hk; omega
  have hnd : (addrs ((m.fresh, x) :: es)).Nodup := List.nodup_cons.mpr ⟨hfresh, h7⟩
  have htn : t ∉ addrs ((m.fresh, x) :: es) := by
    simp only [addrs_cons, List.mem_cons, not_or]
    exact ⟨by omega, ht'⟩
  cases es with
  | nil =>
    simp only [hd_nil, lst_nil] at h1 h2 h3
    simp only [LL.pushFront, alloc, h3, ne_eq, not_false_eq_true, if_true, updateHeadLinks, setHead, setNext, setPrev,
      store, load, h1, h2, Res.ok_bind, reduceCtorEq, Ptr.node.injEq, if_false]
    refine ⟨_, rfl, ⟨by simp, by simp, by simp, ⟨t, h4, by simp only; omega, htn⟩, ?_, hnd, hlt, by simp, ?_⟩⟩
    · exact ⟨by simp, trivial⟩
    · intro k hk
      simp only [addrs_cons, List.mem_cons, not_or] at hk
      simp [hk.1, hx k (by simp)]
  | cons e B =>
    obtain ⟨n, a⟩ := e
    simp only [hd_cons, lst_cons, addrs_cons] at h1 h2 h3 h7 h8 hfresh
    simp only [Seg] at h6
    have hnf : m.fresh ≠ n := by intro he; apply hfresh; simp [he]
    have hnf' : n ≠ m.fresh := Ne.symm hnf
    have hnB : n ∉ addrs B := (List.nodup_cons.mp h7).1
    have hfB : m.fresh ∉ addrs B := fun hm => hfresh (by simp [hm])
    simp only [LL.pushFront, alloc, h3, ne_eq, not_false_eq_true, if_true, updateHeadLinks, setHead, setNext, setPrev,
      store, load, h1, h2, h6.1, Res.ok_bind, reduceCtorEq, Ptr.node.injEq, hnf, hnf', if_false]
    refine ⟨_, rfl, ⟨by simp, by simp [h2], by simp, ⟨t, h4, by simp only; omega, htn⟩, ?_, hnd, hlt, ?_, ?_⟩⟩
    · refine ⟨by simp, ?_, seg_frame ?_ h6.2⟩
      · simp [hnf']
      · intro e he
        have e1 : e.1 ≠ n := fun hh => hnB (hh ▸ mem_addrs he)
        have e2 : e.1 ≠ m.fresh := fun hh => hfB (hh ▸ mem_addrs he)
        simp [e1, e2]
    · simp at h5 ⊢; omega
    · intro k hk
      simp only [addrs_cons, List.mem_cons, not_or] at hk
      simp [hk.1, hk.2.1, hx k (by simpa using hk.2)]

theorem FInv.popFront {m : Mem α} {o n1 : Nat} {a1 : α} {es : Entries α} (h : FInv m o ((n1, a1) :: es)) :
    ∃ m', LL.popFront m o = .ok m' ∧ FInv m' o es := by
  have h1 := h.first; have h2 := h.last; have h3 := h.head; have h5 := h.len
  have h6 := h.seg; have h7 := h.nodup; have h8 := h.lt; have hx := h.exact
  obtain ⟨t, h4, ht, ht'⟩ := h.tail
  simp only [addrs_cons, List.mem_cons, not_or] at ht'
  simp only [addrs_cons] at h7
  have hnd := (List.nodup_cons.mp h7).2
  have hlt : ∀ k ∈ addrs es, k < m.fresh := fun k hk => h8 k (List.mem_cons_of_mem _ hk)
  cases es with
  | nil =>
    obtain ⟨c1, _⟩ := h6
    simp only [hd_cons, lst_cons, hd_nil, lst_nil] at h1 h2 h3 c1
    simp only [LL.popFront, setHead, setNext, setPrev, store, load, free, updateHeadLinks, h3, c1, h2, h1, Res.ok_bind, ne_eq,
      reduceCtorEq, not_false_eq_true, if_true, if_false]
    refine ⟨_, rfl, ⟨by simp, by simp, by simp, ⟨t, h4, ht, ht'.2⟩, trivial, hnd, hlt, by simp, ?_⟩⟩
    intro k _
    by_cases hk : k = n1
    · simp [hk]
    · simp [hk, hx k (by simpa using hk)]
  | cons e B =>
    obtain ⟨n2, a2⟩ := e
    simp only [Seg, hd_cons] at h6
    obtain ⟨c1, c2, sB⟩ := h6
    have h7' := h7
    simp only [addrs_cons, List.nodup_cons, List.mem_cons, not_or] at h7
    have n12 : n1 ≠ n2 := h7.1.1
    have n21 := n12.symm
    simp only [lst_cons, hd_cons] at h1 h2 h3
    simp only [LL.popFront, setHead, setNext, setPrev, store, load, free, updateHeadLinks, h3, c1, c2, h1, Res.ok_bind, ne_eq,
      reduceCtorEq, not_false_eq_true, if_true, Ptr.node.injEq, n12, n21, if_false]
    refine ⟨_, rfl, ⟨by simp, by simp [h2], by simp, ⟨t, h4, ht, ht'.2⟩, ?_, hnd, hlt, ?_, ?_⟩⟩
    · refine ⟨by simp, seg_frame ?_ sB⟩
      intro e he
      have e1 : e.1 ≠ n1 := fun hh => h7.1.2 (hh ▸ mem_addrs he)
      have e2 : e.1 ≠ n2 := fun hh => h7.2.1 (hh ▸ mem_addrs he)
      simp [e1, e2]
    · simp at h5 ⊢; omega
    · intro k hk
      simp only [addrs_cons, List.mem_cons, not_or] at hk
      by_cases hk1 : k = n1
      · subst hk1; simp [n12]
      · have hkx := hx k (by simp [hk1, hk.1, hk.2])
        simp [hk1, hk.1, hkx]

theorem FInv.back_ub {m : Mem α} {o : Nat} {es : Entries α} (h : FInv m o es) :
    (∀ x, pushBack m o x = .ub) ∧ popBack m o = .ub ∧ ∀ f, toListReverse (f + 1) m o = .ub := by
  obtain ⟨t, h4, ht, ht'⟩ := h.tail
  have hc := h.exact t ht'
  have hne : t ≠ m.fresh := by omega
  have hh : m.head o ≠ .null := by rw [h.head]; cases es <;> simp
  refine ⟨fun x => ?_, ?_, fun f => ?_⟩
  · simp [pushBack, alloc, hh, setPrev, setNext, h4, store, hne, hc]
  · simp [popBack, load, h4, hc]
  · simp [toListReverse, walkBack, h4, load, hc]

theorem FInv.observe {m : Mem α} {o : Nat} {es : Entries α} (h : FInv m o es) {f : Nat} (hf : m.fresh < f) :
    size f m o = .ok es.length ∧ toList f m o = .ok (es.map (·.2)) := by
  have := h.len
  constructor
  · unfold size; rw [h.head]; exact sizeLoop_ok h.seg f (by omega)
  · unfold toList; rw [h.head]; exact walk_ok h.seg f (by omega)

theorem FInv.clean {m : Mem α} {o : Nat} {es : Entries α} (h : FInv m o es) {f : Nat} (hf : m.fresh < f) :
    ∃ m', LL.clean f m o = .ok m' ∧ LInv m' o [] ∧ Exact m' [] := by
  have := h.len
  obtain ⟨m1, h1, hs, h3, h4⟩ := cleanLoop_ok h.seg h.nodup f (by omega)
  have c1 : m1.cell (.first o) = some ⟨.null, hd es (.last o), none⟩ := by rw [h4 _ (by simp)]; exact h.first
  have c2 : m1.cell (.last o) = some ⟨lst (.first o) es, .null, none⟩ := by rw [h4 _ (by simp)]; exact h.last
  simp only [LL.clean, h.head, h1, Res.ok_bind, cleanLinks, setHead, setTail, setNext, setPrev, store, c1, c2, reduceCtorEq, if_true,
    if_false]
  refine ⟨_, rfl, ⟨by simp, by simp, by simp, by simp, trivial, by simp, by simp, by simp⟩, ?_⟩
  intro k _
  by_cases hk : k ∈ addrs es
  · simp [h3 k hk]
  · have e : m1.cell (.node k) = m.cell (.node k) :=
      h4 (.node k) (by intro j hj hh; injection hh with hh; subst hh; exact hk hj)
    simp [e, h.exact k hk]

theorem BInv.pushBack {m : Mem α} {o : Nat} {es : Entries α} (h : BInv m o es) (x : α) :
    ∃ m', LL.pushBack m o x = .ok m' ∧ BInv m' o (es ++ [(m.fresh, x)]) := by
  have hfresh : m.fresh ∉ addrs es := fun hm => Nat.lt_irrefl _ (h.lt _ hm)
  have h1 := h.first; have h2 := h.last; have h4 := h.tail; have h5 := h.len
  have h6 := h.seg; have h7 := h.nodup; have h8 := h.lt; have hx := h.exact
  obtain ⟨t, h3, ht, ht'⟩ := h.head
  have hlt : ∀ k ∈ addrs (es ++ [(m.fresh, x)]), k < m.fresh + 1 := by
    intro k hk
    simp only [addrs_append, addrs_cons, addrs_nil, List.mem_append, List.mem_singleton] at hk
    rcases hk with hk | hk
    · have := h8 k hk; omega
    · omega
  have hnd : (addrs (es ++ [(m.fresh, x)])).Nodup := by
    simp only [addrs_append, addrs_cons, addrs_nil]
    rw [List.nodup_append]
    refine ⟨h7, by simp, ?_⟩
    intro a ha b hb
    simp at hb; subst hb
    intro he; subst he; exact hfresh ha
  have htn : t ∉ addrs (es ++ [(m.fresh, x)]) := by
    simp only [addrs_append, addrs_cons, addrs_nil, List.mem_append, List.mem_singleton, not_or]
    exact ⟨ht', by omega⟩
  rcases snoc_cases es with rfl | ⟨A, ⟨n, a⟩, rfl⟩
  · simp only [hd_nil, lst_nil] at h1 h2 h4
    simp only [LL.pushBack, alloc, h3, h4, ne_eq, not_false_eq_true, if_true, updateTailLinks, setTail, setNext, setPrev,
      store, load, h1, h2, Res.ok_bind, reduceCtorEq, if_false]
    refine ⟨_, rfl, ⟨by simp, by simp, ⟨t, h3, by simp only; omega, htn⟩, by simp, ?_, hnd, hlt, by simp, ?_⟩⟩
    · exact ⟨by simp, trivial⟩
    · intro k hk
      simp only [List.nil_append, addrs_cons, addrs_nil, List.mem_singleton] at hk
      simp [hk, hx k (by simp)]
  · simp only [lst_snoc, hd_append, hd_cons, hd_nil, addrs_append, addrs_cons, addrs_nil] at h1 h2 h4 h7 h8 hfresh
    simp only [seg_append, Seg, hd_cons, hd_nil, and_true] at h6
    have hnf : m.fresh ≠ n := by intro he; apply hfresh; simp [he]
    have hnf' : n ≠ m.fresh := Ne.symm hnf
    have hnA : n ∉ addrs A := by
      intro hm
      have := (List.nodup_append.mp h7).2.2 n hm n (by simp)
      exact this rfl
    have hfA : m.fresh ∉ addrs A := fun hm => hfresh (by simp [hm])
    simp only [LL.pushBack, alloc, h3, h4, ne_eq, not_false_eq_true, if_true, updateTailLinks, setTail, setNext, setPrev,
      store, load, h1, h2, h6.2, Res.ok_bind, reduceCtorEq, Ptr.node.injEq, hnf, hnf', if_false]
    refine ⟨_, rfl, ⟨by simp [h1, hd_append], by simp [lst_append], ⟨t, h3, by simp only; omega, htn⟩, by simp [lst_append], ?_, hnd, hlt,
      ?_, ?_⟩⟩
    · rw [List.append_assoc, seg_append]
      refine ⟨seg_frame ?_ h6.1, ?_⟩
      · intro e he
        have e1 : e.1 ≠ n := fun hh => hnA (hh ▸ mem_addrs he)
        have e2 : e.1 ≠ m.fresh := fun hh => hfA (hh ▸ mem_addrs he)
        simp [e1, e2]
      · simp [Seg, hnf, hnf']
    · simp at h5 ⊢; omega
    · intro k hk
      simp only [addrs_append, addrs_cons, addrs_nil, List.mem_append, List.mem_singleton, not_or] at hk
      have hkx := hx k (by simp [hk.1.1, hk.1.2])
      simp [hk.1.2, hk.2, hkx]

theorem BInv.popBack {m : Mem α} {o n2 : Nat} {a2 : α} {es : Entries α} (h : BInv m o (es ++ [(n2, a2)])) :
    ∃ m', LL.popBack m o = .ok m' ∧ BInv m' o es := by
  have h1 := h.first; have h2 := h.last; have h4 := h.tail; have h5 := h.len
  have h6 := h.seg; have h7 := h.nodup; have h8 := h.lt; have hx := h.exact
  obtain ⟨t, h3, ht, ht'⟩ := h.head
  simp only [addrs_append, addrs_cons, addrs_nil, List.mem_append, List.mem_singleton, not_or] at ht'
  simp only [addrs_append, addrs_cons, addrs_nil] at h7
  have hnd := (List.nodup_append.mp h7).1
  have hlt : ∀ k ∈ addrs es, k < m.fresh := fun k hk => h8 k (by rw [addrs_append]; exact List.mem_append_left _ hk)
  rcases snoc_cases es with rfl | ⟨A, ⟨n1, a1⟩, rfl⟩
  · obtain ⟨c1, _⟩ := h6
    simp only [List.nil_append, hd_cons, lst_cons, hd_nil, lst_nil] at h1 h2 h4 c1
    simp only [LL.popBack, setTail, setNext, setPrev, store, load, free, updateTailLinks, h4, c1, h2, h1, Res.ok_bind, ne_eq,
      reduceCtorEq, not_false_eq_true, if_true, if_false]
    refine ⟨_, rfl, ⟨by simp, by simp, ⟨t, h3, ht, ht'.1⟩, by simp, trivial, hnd, hlt, by simp, ?_⟩⟩
    intro k _
    by_cases hk : k = n2
    · simp [hk]
    · simp [hk, hx k (by simpa using hk)]
  · simp only [seg_append, Seg, hd_cons, hd_nil, and_true, lst_snoc] at h6
    obtain ⟨⟨sA, c1⟩, c2⟩ := h6
    simp only [addrs_append, addrs_cons, addrs_nil, List.nodup_append, List.nodup_cons, List.mem_append, List.mem_cons, List.not_mem_nil,
      or_false] at h7
    have n12 : n1 ≠ n2 := h7.2.2 n1 (Or.inr rfl) n2 rfl
    have n21 := n12.symm
    have hA1 : n1 ∉ addrs A := fun hm => h7.1.2.2 n1 hm n1 rfl rfl
    have hA2 : n2 ∉ addrs A := fun hm => h7.2.2 n2 (Or.inl hm) n2 rfl rfl
    simp only [lst_snoc, hd_append, hd_cons] at h1 h2 h4
    simp only [LL.popBack, setTail, setNext, setPrev, store, load, free, updateTailLinks, h4, c1, c2, h2, Res.ok_bind, ne_eq,
      reduceCtorEq, not_false_eq_true, if_true, Ptr.node.injEq, n12, n21, if_false]
    refine ⟨_, rfl, ⟨by simp [h1, hd_append], by simp [lst_append], ⟨t, h3, ht, ht'.1⟩, by simp [lst_append], ?_, hnd, hlt, ?_, ?_⟩⟩
    · simp only [seg_append, Seg, hd_cons, hd_nil, and_true]
      refine ⟨seg_frame ?_ sA, ?_⟩
      · intro e he
        have e1 : e.1 ≠ n1 := fun hh => hA1 (hh ▸ mem_addrs he)
        have e2 : e.1 ≠ n2 := fun hh => hA2 (hh ▸ mem_addrs he)
        simp [e1, e2]
      · simp
    · simp at h5 ⊢; omega
    · intro k hk
      simp only [addrs_append, addrs_cons, addrs_nil, List.mem_append, List.mem_singleton, not_or] at hk
      by_cases hk2 : k = n2
      · subst hk2; simp [n21]
      · have hkx := hx k (by simp [hk.1, hk.2, hk2])
        simp [hk2, hk.2, hkx]

theorem BInv.front_ub {m : Mem α} {o : Nat} {es : Entries α} (h : BInv m o es) :
    (∀ x, pushFront m o x = .ub) ∧ popFront m o = .ub ∧
      ∀ f, size (f + 1) m o = .ub ∧ toList (f + 1) m o = .ub ∧ clean (f + 1) m o = .ub := by
  obtain ⟨t, h3, ht, ht'⟩ := h.head
  have hc := h.exact t ht'
  have hne : t ≠ m.fresh := by omega
  refine ⟨fun x => ?_, ?_, fun f => ⟨?_, ?_, ?_⟩⟩
  · simp [pushFront, alloc, h3, setPrev, hne, hc]
  · simp [popFront, load, h3, hc]
  · simp [size, sizeLoop, h3, load, hc]
  · simp [toList, walk, h3, load, hc]
  · simp [clean, cleanLoop, h3, load, hc]

theorem BInv.observe {m : Mem α} {o : Nat} {es : Entries α} (h : BInv m o es) {f : Nat} (hf : m.fresh < f) :
    toListReverse f m o = .ok (es.map (·.2)).reverse := by
  have := h.len
  unfold toListReverse
  rw [h.tail]
  exact walkBack_ok es.length rfl h.seg f (by omega)

end Flame.LL
