import Verif.List.Lemmas

/-! # Removal, range operations, copying and moving -/

namespace Flame.LL
variable {α : Type}

/-! ## Single removal -/

theorem popBack_ok {m : Mem α} {o : Nat} {A : Entries α} {n1 n2 : Nat} {a1 a2 : α}
    (h : LInv m o (A ++ [(n1, a1)] ++ [(n2, a2)])) :
    ∃ m', popBack m o = .ok m' ∧ Post m m' o (A ++ [(n1, a1)] ++ [(n2, a2)]) (A ++ [(n1, a1)]) := by
  have h1 := h.first; have h2 := h.last; have h3 := h.head; have h4 := h.tail; have h5 := h.len
  have h6 := h.seg; have h7 := h.nodup; have h8 := h.lt
  simp only [addrs_append, addrs_cons, addrs_nil] at h7
  simp only [seg_append, Seg, hd_cons, hd_nil, and_true, lst_snoc] at h6
  obtain ⟨⟨sA, c1⟩, c2⟩ := h6
  have h7' := h7
  simp only [List.nodup_append, List.nodup_cons, List.mem_append, List.mem_cons, List.not_mem_nil, or_false] at h7
  have n12 : n1 ≠ n2 := h7.2.2 n1 (Or.inr rfl) n2 rfl
  have n21 := n12.symm
  have hA1 : n1 ∉ addrs A := fun hm => h7.1.2.2 n1 hm n1 rfl rfl
  have hA2 : n2 ∉ addrs A := fun hm => h7.2.2 n2 (Or.inl hm) n2 rfl rfl
  simp only [lst_snoc, hd_append, hd_cons] at h1 h2 h3 h4
  simp only [popBack, setTail, setNext, setPrev, store, load, free, updateTailLinks, h4, c1, c2, h2, Res.ok_bind, ne_eq,
    reduceCtorEq, not_false_eq_true, if_true, Ptr.node.injEq, n12, n21, if_false]
  refine ⟨_, rfl, ⟨?_, ?_, ?_, ?_, ?_, ?_, ?_, ?_⟩, ?_, ?_, ?_, ?_, ?_⟩
  · simp [h1, hd_append]
  · simp [lst_append]
  · simp [h3, hd_append]
  · simp [lst_append]
  · simp only [seg_append, Seg, hd_cons, hd_nil, and_true]
    refine ⟨seg_frame ?_ sA, ?_⟩
    · intro e he
      have e1 : e.1 ≠ n1 := fun hh => hA1 (hh ▸ mem_addrs he)
      have e2 : e.1 ≠ n2 := fun hh => hA2 (hh ▸ mem_addrs he)
      simp [e1, e2]
    · simp
  · simp only [addrs_append, addrs_cons, addrs_nil]; exact (List.nodup_append.mp h7').1
  · intro k hk
    exact h8 k (by rw [addrs_append]; exact List.mem_append_left _ hk)
  · simp at h5 ⊢; omega
  · intro p hp1 hp2 hp3 hp4
    have a2 := hp3 n1 (by simp)
    have a3 := hp3 n2 (by simp)
    simp [hp2, a2, a3]
  · intro k hk hk'
    have : k = n2 := by
      rw [addrs_append] at hk
      rcases List.mem_append.mp hk with hk | hk
      · exact absurd hk hk'
      · simpa using hk
    subst this
    simp [n21]
  · intro i hi; simp [hi]
  · simp
  · intro k hk; left; rw [addrs_append]; exact List.mem_append_left _ hk

theorem popFront_ok {m : Mem α} {o : Nat} {B : Entries α} {n1 n2 : Nat} {a1 a2 : α}
    (h : LInv m o ((n1, a1) :: (n2, a2) :: B)) :
    ∃ m', popFront m o = .ok m' ∧ Post m m' o ((n1, a1) :: (n2, a2) :: B) ((n2, a2) :: B) := by
  have h1 := h.first; have h2 := h.last; have h3 := h.head; have h4 := h.tail; have h5 := h.len
  have h6 := h.seg; have h7 := h.nodup; have h8 := h.lt
  simp only [addrs_cons] at h7
  simp only [Seg, hd_cons] at h6
  obtain ⟨c1, c2, sB⟩ := h6
  have h7' := h7
  simp only [List.nodup_cons, List.mem_cons, not_or] at h7
  have n12 : n1 ≠ n2 := h7.1.1
  have n21 := n12.symm
  simp only [lst_cons, hd_cons] at h1 h2 h3 h4
  simp only [popFront, setHead, setNext, setPrev, store, load, free, updateHeadLinks, h3, c1, c2, h1, Res.ok_bind, ne_eq,
    reduceCtorEq, not_false_eq_true, if_true, Ptr.node.injEq, n12, n21, if_false]
  refine ⟨_, rfl, ⟨?_, ?_, ?_, ?_, ?_, ?_, ?_, ?_⟩, ?_, ?_, ?_, ?_, ?_⟩
  · simp
  · simp [h2]
  · simp
  · simp [h4]
  · refine ⟨by simp, seg_frame ?_ sB⟩
    intro e he
    have e1 : e.1 ≠ n1 := fun hh => h7.1.2 (hh ▸ mem_addrs he)
    have e2 : e.1 ≠ n2 := fun hh => h7.2.1 (hh ▸ mem_addrs he)
    simp [e1, e2]
  · exact (List.nodup_cons.mp h7').2
  · intro k hk; exact h8 k (List.mem_cons_of_mem _ hk)
  · simp at h5 ⊢; omega
  · intro p hp1 hp2 hp3 hp4
    have a2 := hp3 n1 (by simp)
    have a3 := hp3 n2 (by simp)
    simp [hp1, a2, a3]
  · intro k hk hk'
    have : k = n1 := by
      rcases List.mem_cons.mp hk with hk | hk
      · exact hk
      · exact absurd hk hk'
    subst this
    simp [n12]
  · intro i hi; simp [hi]
  · simp
  · intro k hk; left; exact List.mem_cons_of_mem _ hk

theorem head_not_in {m : Mem α} {o : Nat} {A B : Entries α} (h : LInv m o (A ++ B)) (hA : A ≠ []) {n : Nat}
    (hn : n ∈ addrs B) : m.head o ≠ .node n := by
  rw [h.head]
  cases A with
  | nil => exact absurd rfl hA
  | cons e A =>
    simp only [List.cons_append, hd_cons, ne_eq, Ptr.node.injEq]
    intro he
    have := h.nodup
    simp only [List.cons_append, addrs_cons, addrs_append, List.nodup_cons, List.mem_append, not_or] at this
    exact this.1.2 (he ▸ hn)

theorem erase_mid {m : Mem α} {o : Nat} {A B : Entries α} {n1 n n2 : Nat} {a1 a a2 : α}
    (h : LInv m o (A ++ [(n1, a1)] ++ (n, a) :: (n2, a2) :: B)) :
    ∃ m', erase m o (.node n) = .ok m' ∧
      Post m m' o (A ++ [(n1, a1)] ++ (n, a) :: (n2, a2) :: B) (A ++ [(n1, a1)] ++ (n2, a2) :: B) := by
  have hhd := head_not_in (n := n) h (by simp) (by simp)
  have h1 := h.first; have h2 := h.last; have h3 := h.head; have h4 := h.tail; have h5 := h.len
  have h6 := h.seg; have h7 := h.nodup; have h8 := h.lt
  simp only [addrs_append, addrs_cons, addrs_nil] at h7
  simp only [seg_append, Seg, hd_cons, hd_nil, and_true, lst_snoc] at h6
  obtain ⟨⟨sA, c1⟩, c, c2, sB⟩ := h6
  have h7' := h7
  simp only [List.nodup_append, List.nodup_cons, List.mem_append, List.mem_cons, List.not_mem_nil, or_false, not_or] at h7
  have e1n : n1 ≠ n := h7.2.2 n1 (Or.inr rfl) n (Or.inl rfl)
  have e12 : n1 ≠ n2 := h7.2.2 n1 (Or.inr rfl) n2 (Or.inr (Or.inl rfl))
  have en2 : n ≠ n2 := h7.2.1.1.1
  have e1n' := e1n.symm; have e12' := e12.symm; have en2' := en2.symm
  have hA1 : n1 ∉ addrs A := fun hm => h7.1.2.2 n1 hm n1 rfl rfl
  have hA : n ∉ addrs A := fun hm => h7.2.2 n (Or.inl hm) n (Or.inl rfl) rfl
  have hA2 : n2 ∉ addrs A := fun hm => h7.2.2 n2 (Or.inl hm) n2 (Or.inr (Or.inl rfl)) rfl
  have hB : n ∉ addrs B := h7.2.1.1.2
  have hB2 : n2 ∉ addrs B := h7.2.1.2.1
  have hB1 : n1 ∉ addrs B := fun hm => h7.2.2 n1 (Or.inr rfl) n1 (Or.inr (Or.inr hm)) rfl
  simp only [erase, Ne.symm hhd, setNext, setPrev, store, load, free, c1, c, c2, Res.ok_bind,
    reduceCtorEq, if_true, Ptr.node.injEq, e1n, e12, en2, e1n', e12', en2', if_false]
  refine ⟨_, rfl, ⟨?_, ?_, ?_, ?_, ?_, ?_, ?_, ?_⟩, ?_, ?_, ?_, ?_, ?_⟩
  · simp [h1, hd_append]
  · simp [h2, lst_append]
  · simp [h3, hd_append]
  · simp [h4, lst_append]
  · simp only [seg_append, Seg, hd_cons, hd_nil, and_true, lst_snoc]
    refine ⟨⟨seg_frame ?_ sA, ?_⟩, ?_, seg_frame ?_ sB⟩
    · intro e he
      have e1 : e.1 ≠ n1 := fun hh => hA1 (hh ▸ mem_addrs he)
      have e2 : e.1 ≠ n2 := fun hh => hA2 (hh ▸ mem_addrs he)
      have e3 : e.1 ≠ n := fun hh => hA (hh ▸ mem_addrs he)
      simp [e1, e2, e3]
    · simp [e12, e1n]
    · simp [en2']
    · intro e he
      have e1 : e.1 ≠ n1 := fun hh => hB1 (hh ▸ mem_addrs he)
      have e2 : e.1 ≠ n2 := fun hh => hB2 (hh ▸ mem_addrs he)
      have e3 : e.1 ≠ n := fun hh => hB (hh ▸ mem_addrs he)
      simp [e1, e2, e3]
  · have hp : (addrs (A ++ [(n1, a1)] ++ (n, a) :: (n2, a2) :: B)).Perm
        (n :: addrs (A ++ [(n1, a1)] ++ (n2, a2) :: B)) := by
      simp only [addrs_append, addrs_cons]; exact List.perm_middle
    have := hp.nodup_iff.mp h.nodup
    exact (List.nodup_cons.mp this).2
  · intro k hk
    apply h8 k
    simp only [addrs_append, addrs_cons, List.mem_append, List.mem_cons] at hk ⊢
    rcases hk with hk | hk
    · exact Or.inl hk
    · exact Or.inr (Or.inr hk)
  · simp at h5 ⊢; omega
  · intro p hp1 hp2 hp3 hp4
    have a1 := hp3 n (by simp)
    have a2 := hp3 n1 (by simp)
    have a3 := hp3 n2 (by simp)
    simp [a1, a2, a3]
  · intro k hk hk'
    have : k = n := by
      simp only [addrs_append, addrs_cons, addrs_nil, List.mem_append, List.mem_cons, List.not_mem_nil, or_false, not_or] at hk hk'
      rcases hk with hk | hk | hk
      · exact absurd hk (fun hh => by rcases hh with hh | hh; exact hk'.1.1 hh; exact hk'.1.2 hh)
      · exact hk
      · exact absurd hk (fun hh => by rcases hh with hh | hh; exact hk'.2.1 hh; exact hk'.2.2 hh)
    subst this
    simp
  · intro i hi; simp
  · simp
  · intro k hk; left
    simp only [addrs_append, addrs_cons, List.mem_append, List.mem_cons] at hk ⊢
    rcases hk with hk | hk
    · exact Or.inl hk
    · exact Or.inr (Or.inr hk)

/-! ## Freeing a segment -/

/-- Members other than node cells are unchanged. -/
structure Same (m m' : Mem α) : Prop where
  head : m'.head = m.head
  tail : m'.tail = m.tail
  fresh : m'.fresh = m.fresh

theorem Same.refl (m : Mem α) : Same m m := ⟨rfl, rfl, rfl⟩
theorem Same.trans {m m' m'' : Mem α} (h : Same m m') (h' : Same m' m'') : Same m m'' :=
  ⟨h'.head.trans h.head, h'.tail.trans h.tail, h'.fresh.trans h.fresh⟩

theorem freeUntil_ok {m : Mem α} {es : Entries α} {p e : Ptr} (s : Seg m p es e) (nd : (addrs es).Nodup)
    (he : ∀ n ∈ addrs es, e ≠ .node n) :
    ∀ f, es.length < f → ∃ m', freeUntil e f m (hd es e) = .ok m' ∧ Same m m' ∧
      (∀ n ∈ addrs es, m'.cell (.node n) = none) ∧ (∀ q, (∀ n ∈ addrs es, q ≠ .node n) → m'.cell q = m.cell q) := by
  induction es generalizing p m with
  | nil =>
    intro f hf
    obtain ⟨f, rfl⟩ : ∃ g, f = g + 1 := ⟨f - 1, by omega⟩
    exact ⟨m, by simp [freeUntil], Same.refl m, by simp, fun _ _ => rfl⟩
  | cons x es ih =>
    intro f hf
    obtain ⟨n, a⟩ := x
    simp only [List.length_cons] at hf
    obtain ⟨f, rfl⟩ : ∃ g, f = g + 1 := ⟨f - 1, by omega⟩
    simp only [addrs_cons, List.nodup_cons] at nd
    have hn := he n (by simp)
    have s2 : Seg { m with cell := fun q => if q = .node n then none else m.cell q } (.node n) es e := by
      refine seg_frame ?_ s.2
      intro x hx
      have : x.1 ≠ n := fun hh => nd.1 (hh ▸ mem_addrs hx)
      simp [this]
    obtain ⟨m', h1, h2, h3, h4⟩ := ih s2 nd.2 (fun k hk => he k (List.mem_cons_of_mem _ hk)) f (by omega)
    refine ⟨m', ?_, ⟨h2.head, h2.tail, h2.fresh⟩, ?_, ?_⟩
    · rw [freeUntil, if_neg (by simpa using Ne.symm hn)]
      simp only [hd_cons, load, s.1, free, Res.ok_bind]
      exact h1
    · intro k hk
      simp only [addrs_cons, List.mem_cons] at hk
      by_cases hk' : k ∈ addrs es
      · exact h3 k hk'
      · have : k = n := hk.resolve_right hk'
        subst this
        rw [h4]
        · simp
        · intro j hj hh; injection hh with hh; subst hh; exact hk' hj
    · intro q hq
      rw [h4 q (fun k hk => hq k (by simp [hk]))]
      have := hq n (by simp)
      simp [this]

theorem cleanLoop_ok {m : Mem α} {o : Nat} {es : Entries α} {p : Ptr} (s : Seg m p es (.last o)) (nd : (addrs es).Nodup) :
    ∀ f, es.length < f → ∃ m', cleanLoop m o f (hd es (.last o)) = .ok m' ∧ Same m m' ∧
      (∀ n ∈ addrs es, m'.cell (.node n) = none) ∧ (∀ q, (∀ n ∈ addrs es, q ≠ .node n) → m'.cell q = m.cell q) := by
  induction es generalizing p m with
  | nil =>
    intro f hf
    obtain ⟨f, rfl⟩ : ∃ g, f = g + 1 := ⟨f - 1, by omega⟩
    exact ⟨m, by simp [cleanLoop], Same.refl m, by simp, fun _ _ => rfl⟩
  | cons x es ih =>
    intro f hf
    obtain ⟨n, a⟩ := x
    simp only [List.length_cons] at hf
    obtain ⟨f, rfl⟩ : ∃ g, f = g + 1 := ⟨f - 1, by omega⟩
    simp only [addrs_cons, List.nodup_cons] at nd
    have s2 : Seg { m with cell := fun q => if q = .node n then none else m.cell q } (.node n) es (.last o) := by
      refine seg_frame ?_ s.2
      intro x hx
      have : x.1 ≠ n := fun hh => nd.1 (hh ▸ mem_addrs hx)
      simp [this]
    obtain ⟨m', h1, h2, h3, h4⟩ := ih s2 nd.2 f (by omega)
    refine ⟨m', ?_, ⟨h2.head, h2.tail, h2.fresh⟩, ?_, ?_⟩
    · rw [cleanLoop, if_neg (by simp)]
      simp only [hd_cons, load, s.1, free, Res.ok_bind]
      exact h1
    · intro k hk
      simp only [addrs_cons, List.mem_cons] at hk
      by_cases hk' : k ∈ addrs es
      · exact h3 k hk'
      · have : k = n := hk.resolve_right hk'
        subst this
        rw [h4]
        · simp
        · intro j hj hh; injection hh with hh; subst hh; exact hk' hj
    · intro q hq
      rw [h4 q (fun k hk => hq k (by simp [hk]))]
      have := hq n (by simp)
      simp [this]

theorem clean_ok {m : Mem α} {o : Nat} {es : Entries α} (h : LInv m o es) {f : Nat} (hf : es.length < f) :
    ∃ m', clean f m o = .ok m' ∧ Post m m' o es [] := by
  have key : ∃ m', cleanLoop m o f (m.head o) = .ok m' ∧ Same m m' ∧
      (∀ n ∈ addrs es, m'.cell (.node n) = none) ∧ (∀ q, (∀ n ∈ addrs es, q ≠ .node n) → m'.cell q = m.cell q) := by
    by_cases hne : es = []
    · subst hne
      obtain ⟨f, rfl⟩ : ∃ g, f = g + 1 := ⟨f - 1, by omega⟩
      refine ⟨m, ?_, Same.refl m, by simp, fun _ _ => rfl⟩
      rw [h.head]; simp [cleanLoop]
    · rw [h.head, hd_eq hne _ (.last o)]
      exact cleanLoop_ok h.seg h.nodup f hf
  obtain ⟨m1, h1, hs, h3, h4⟩ := key
  have c1 : m1.cell (.first o) = some ⟨.null, hd es .null, none⟩ := by rw [h4 _ (by simp)]; exact h.first
  have c2 : m1.cell (.last o) = some ⟨lst .null es, .null, none⟩ := by rw [h4 _ (by simp)]; exact h.last
  simp only [clean, h1, Res.ok_bind, cleanLinks, setHead, setTail, setNext, setPrev, store, c1, c2, reduceCtorEq, if_true,
    if_false]
  refine ⟨_, rfl, ⟨?_, ?_, ?_, ?_, ?_, ?_, ?_, ?_⟩, ?_, ?_, ?_, ?_, ?_⟩
  · simp
  · simp
  · simp
  · simp
  · trivial
  · simp
  · simp
  · simp
  · intro p hp1 hp2 hp3 _
    simp [hp1, hp2, h4 p hp3]
  · intro n hn _; simp [h3 n hn]
  · intro i hi; simp [hi, hs.head, hs.tail]
  · simp [hs.fresh]
  · simp

/-! ## Range removal -/

theorem popFrontUntil_ok {o : Nat} {B : Entries α} (hB : B ≠ []) : ∀ (C : Entries α) {m : Mem α}, LInv m o (C ++ B) →
    ∀ f, C.length < f → ∃ m', popFrontUntil o (hd B (.last o)) f m = .ok m' ∧ Post m m' o (C ++ B) B := by
  intro C
  induction C with
  | nil =>
    intro m h f hf
    obtain ⟨f, rfl⟩ : ∃ g, f = g + 1 := ⟨f - 1, by omega⟩
    refine ⟨m, ?_, Post.refl (by simpa using h)⟩
    have hh := h.head
    simp only [List.nil_append] at hh
    rw [popFrontUntil, if_pos (by rw [hh, hd_eq hB])]
  | cons e C ih =>
    intro m h f hf
    simp only [List.length_cons] at hf
    obtain ⟨f, rfl⟩ : ∃ g, f = g + 1 := ⟨f - 1, by omega⟩
    have hne : m.head o ≠ hd B (.last o) := by
      rw [h.head]
      cases B with
      | nil => exact absurd rfl hB
      | cons b B =>
        simp only [List.cons_append, hd_cons, ne_eq, Ptr.node.injEq]
        intro he
        have := h.nodup
        simp only [List.cons_append, addrs_cons, List.nodup_cons, addrs_append, List.mem_append, List.mem_cons, not_or] at this
        exact this.1.2.1 he
    obtain ⟨e2, R, hR⟩ : ∃ e2 R, C ++ B = e2 :: R := by
      cases hCB : C ++ B with
      | nil => exact absurd (List.append_eq_nil_iff.mp hCB).2 hB
      | cons e2 R => exact ⟨e2, R, rfl⟩
    have h' : LInv m o (e :: e2 :: R) := by rw [← hR]; exact h
    obtain ⟨m1, p1, p2⟩ := popFront_ok (n1 := e.1) (a1 := e.2) (n2 := e2.1) (a2 := e2.2) h'
    have p2' : Post m m1 o (e :: (C ++ B)) (C ++ B) := by rw [hR]; exact p2
    obtain ⟨m2, q1, q2⟩ := ih p2'.inv f (by omega)
    refine ⟨m2, ?_, p2'.trans q2 (Or.inl ?_)⟩
    · rw [popFrontUntil, if_neg hne]; simp only [p1, Res.ok_bind]; exact q1
    · intro n hn; exact List.mem_cons_of_mem _ hn

theorem popBackUntil_ok {o : Nat} {A : Entries α} {c : Nat × α} : ∀ (k : Nat) (C : Entries α) {m : Mem α}, C.length = k →
    LInv m o (A ++ c :: C) → ∀ f, C.length < f →
    ∃ m', popBackUntil o (.node c.1) f m = .ok m' ∧ Post m m' o (A ++ c :: C) (A ++ [c]) := by
  intro k
  induction k with
  | zero =>
    intro C m hk h f hf
    have : C = [] := List.eq_nil_of_length_eq_zero hk
    subst this
    obtain ⟨f, rfl⟩ : ∃ g, f = g + 1 := ⟨f - 1, by omega⟩
    refine ⟨m, ?_, Post.refl h⟩
    rw [popBackUntil, if_pos (by rw [h.tail, lst_snoc])]
  | succ k ih =>
    intro C m hk h f hf
    rcases snoc_cases C with rfl | ⟨C', e, rfl⟩
    · simp at hk
    · simp only [List.length_append, List.length_singleton] at hk hf
      obtain ⟨f, rfl⟩ : ∃ g, f = g + 1 := ⟨f - 1, by omega⟩
      have ht : m.tail o = .node e.1 := by
        rw [h.tail, show A ++ c :: (C' ++ [e]) = (A ++ c :: C') ++ [e] by simp, lst_snoc]
      have hne : m.tail o ≠ .node c.1 := by
        rw [ht]; simp only [ne_eq, Ptr.node.injEq]
        intro he
        have := h.nodup
        simp only [addrs_append, addrs_cons] at this
        have := (List.nodup_cons.mp (List.nodup_append.mp this).2.1).1
        apply this; simp [← he]
      obtain ⟨D, d, hD⟩ : ∃ D d, A ++ c :: C' = D ++ [d] := by
        rcases snoc_cases (A ++ c :: C') with h0 | ⟨D, d, hd⟩
        · simp at h0
        · exact ⟨D, d, hd⟩
      have heq : A ++ c :: (C' ++ [e]) = D ++ [(d.1, d.2)] ++ [(e.1, e.2)] := by
        rw [← hD]; simp
      obtain ⟨m1, p1, p2⟩ := popBack_ok (heq ▸ h)
      have p2' : Post m m1 o (A ++ c :: (C' ++ [e])) (A ++ c :: C') := by rw [heq, hD]; exact p2
      obtain ⟨m2, q1, q2⟩ := ih C' (by omega) p2'.inv f (by omega)
      refine ⟨m2, ?_, p2'.trans q2 (Or.inl ?_)⟩
      · rw [popBackUntil, if_neg hne]; simp only [p1, Res.ok_bind]; exact q1
      · intro n hn
        simp only [addrs_append, addrs_cons, List.mem_append, List.mem_cons] at hn ⊢
        rcases hn with h | h | h
        · exact Or.inl h
        · exact Or.inr (Or.inl h)
        · exact Or.inr (Or.inr (Or.inl h))

/-! ## Relinking the ends of a segment -/

theorem setNext_lst {m : Mem α} {p q : Ptr} {C : Entries α} (s : Seg m p C q) (nd : (addrs C).Nodup) (hne : C ≠ []) (q' : Ptr) :
    ∃ m', setNext m (lst .null C) q' = .ok m' ∧ Seg m' p C q' ∧ (∀ r, r ≠ lst .null C → m'.cell r = m.cell r) ∧ Same m m' := by
  rcases snoc_cases C with rfl | ⟨A, ⟨n, a⟩, rfl⟩
  · exact absurd rfl hne
  · rw [seg_append] at s
    obtain ⟨sA, c, _⟩ := s
    simp only [hd_cons, hd_nil] at sA c
    simp only [lst_snoc, setNext, c, store]
    refine ⟨_, rfl, ?_, ?_, ⟨rfl, rfl, rfl⟩⟩
    · rw [seg_append]
      refine ⟨seg_frame ?_ sA, by simp [Seg]⟩
      intro e he
      have : e.1 ≠ n := by
        intro hh
        simp only [addrs_append, addrs_cons, addrs_nil] at nd
        exact (List.nodup_append.mp nd).2.2 e.1 (mem_addrs he) n (by simp) hh
      simp [this]
    · intro r hr; simp [hr]

theorem setPrev_hd {m : Mem α} {p q : Ptr} {C : Entries α} (s : Seg m p C q) (nd : (addrs C).Nodup) (hne : C ≠ []) (p' : Ptr) :
    ∃ m', setPrev m (hd C .null) p' = .ok m' ∧ Seg m' p' C q ∧ (∀ r, r ≠ hd C .null → m'.cell r = m.cell r) ∧ Same m m' := by
  cases C with
  | nil => exact absurd rfl hne
  | cons e C =>
    obtain ⟨c, sC⟩ := s
    simp only [hd_cons, setPrev, c, store]
    refine ⟨_, rfl, ⟨by simp, seg_frame ?_ sC⟩, ?_, ⟨rfl, rfl, rfl⟩⟩
    · intro x hx
      have : x.1 ≠ e.1 := by
        intro hh
        have hm := mem_addrs hx
        rw [hh] at hm
        exact (List.nodup_cons.mp nd).1 hm
      simp [this]
    · intro r hr; simp [hr]

theorem hd_mem {C : Entries α} (hne : C ≠ []) (q : Ptr) : ∃ n ∈ addrs C, hd C q = .node n := by
  cases C with
  | nil => exact absurd rfl hne
  | cons e C => exact ⟨e.1, by simp, rfl⟩

theorem lst_mem {C : Entries α} (hne : C ≠ []) (q : Ptr) : ∃ n ∈ addrs C, lst q C = .node n := by
  rcases snoc_cases C with rfl | ⟨A, e, rfl⟩
  · exact absurd rfl hne
  · exact ⟨e.1, by simp, lst_snoc ..⟩

theorem hd_load {m : Mem α} {p q : Ptr} {C : Entries α} (s : Seg m p C q) (hne : C ≠ []) (r : Ptr) :
    ∃ c, m.cell (hd C r) = some c ∧ c.prev = p := by
  cases C with
  | nil => exact absurd rfl hne
  | cons e C => exact ⟨_, s.1, rfl⟩

theorem eraseRange_mid {m : Mem α} {o : Nat} {A C B : Entries α} (h : LInv m o (A ++ (C ++ B))) (hA : A ≠ []) (hB : B ≠ [])
    {f : Nat} (hf : C.length < f) :
    ∃ m', eraseRange f m o (hd (C ++ B) (.last o)) (hd B (.last o)) = .ok m' ∧ Post m m' o (A ++ (C ++ B)) (A ++ B) := by
  have hCB : C ++ B ≠ [] := by intro he; exact hB (List.append_eq_nil_iff.mp he).2
  obtain ⟨nb, hnb, hnbe⟩ := hd_mem hCB (.last o)
  obtain ⟨ne, hne', hnee⟩ := hd_mem hB (.last o)
  obtain ⟨nA, hnA, hnAe⟩ := lst_mem hA .null
  have hhd : m.head o ≠ hd (C ++ B) (.last o) := by rw [hnbe]; exact head_not_in h hA hnb
  have nd := h.nodup
  rw [addrs_append, addrs_append] at nd
  have ndA := (List.nodup_append.mp nd).1
  have ndCB := (List.nodup_append.mp nd).2.1
  have ndC := (List.nodup_append.mp ndCB).1
  have ndB := (List.nodup_append.mp ndCB).2.1
  have dACB := (List.nodup_append.mp nd).2.2
  have dCB := (List.nodup_append.mp ndCB).2.2
  have s := h.seg
  rw [seg_append, seg_append] at s
  obtain ⟨sA, sC, sB⟩ := s
  obtain ⟨cb, hcb, hcbp⟩ := hd_load (m := m) (p := lst (.first o) A) (q := .last o) (C := C ++ B)
    (by rw [seg_append]; exact ⟨sC, sB⟩) hCB (.last o)
  have hlA : lst (.first o) A = lst .null A := lst_eq hA _ _
  obtain ⟨m1, u1, u2, u3, u4⟩ := setNext_lst sA ndA hA (hd B (.last o))
  have sC1 : Seg m1 (lst (.first o) A) C (hd B (.last o)) := seg_frame (fun e he => u3 _ (by
    rw [hnAe]; intro hh; injection hh with hh
    exact dACB nA hnA e.1 (List.mem_append_left _ (mem_addrs he)) hh.symm)) sC
  have sB1 : Seg m1 (lst (lst (.first o) A) C) B (.last o) := seg_frame (fun e he => u3 _ (by
    rw [hnAe]; intro hh; injection hh with hh
    exact dACB nA hnA e.1 (List.mem_append_right _ (mem_addrs he)) hh.symm)) sB
  obtain ⟨m2, v1, v2, v3, v4⟩ := setPrev_hd sB1 ndB hB (lst .null A)
  have hBn : hd B Ptr.null = .node ne := by rw [hd_eq hB _ (.last o)]; exact hnee
  have sA2 : Seg m2 (.first o) A (hd B (.last o)) := seg_frame (fun e he => v3 _ (by
    rw [hBn]; intro hh; injection hh with hh
    exact dACB e.1 (mem_addrs he) ne (List.mem_append_right _ hne') hh)) u2
  have sC2 : Seg m2 (lst (.first o) A) C (hd B (.last o)) := seg_frame (fun e he => v3 _ (by
    rw [hBn]; intro hh; injection hh with hh
    exact dCB e.1 (mem_addrs he) ne hne' hh)) sC1
  obtain ⟨m3, w1, w2, w3, w4⟩ := freeUntil_ok sC2 ndC (by
    intro n hn; rw [hnee]; intro hh; injection hh with hh
    exact dCB n hn ne hne' hh.symm) f hf
  have hcell : ∀ q, q ≠ lst .null A → q ≠ hd B .null → (∀ n ∈ addrs C, q ≠ .node n) → m3.cell q = m.cell q := by
    intro q q1 q2 q3; rw [w4 q q3, v3 q q2, u3 q q1]
  have hfirst : m3.cell (.first o) = m.cell (.first o) := hcell _ (by rw [hnAe]; simp) (by rw [hBn]; simp) (by simp)
  have hlast : m3.cell (.last o) = m.cell (.last o) := hcell _ (by rw [hnAe]; simp) (by rw [hBn]; simp) (by simp)
  have same := u4.trans (v4.trans w2)
  refine ⟨m3, ?_, ⟨⟨?_, ?_, ?_, ?_, ?_, ?_, ?_, ?_⟩, ?_, ?_, ?_, ?_, ?_⟩⟩
  · unfold eraseRange
    rw [if_neg (fun hh => hhd hh.1.symm), if_neg (fun hh => hhd hh.symm), if_neg (by rw [hnee]; simp)]
    have v1' : setPrev m1 (hd B (.last o)) (lst .null A) = .ok m2 := by rw [hd_eq hB (.last o) .null]; exact v1
    rw [hd_append] at hcb ⊢
    simp only [load, hcb, Res.ok_bind, hcbp, hlA, u1, v1']
    exact w1
  · rw [hfirst, h.first, hd_append A (C ++ B), hd_append A B, hd_eq hA (hd (C ++ B) .null) (hd B .null)]
  · rw [hlast, h.last]
    simp only [lst_append]
    rw [lst_eq hB (lst (lst .null A) C) (lst .null A)]
  · rw [same.head, h.head, hd_append A (C ++ B), hd_append A B, hd_eq hA (hd (C ++ B) .null) (hd B .null)]
  · rw [same.tail, h.tail]
    simp only [lst_append]
    rw [lst_eq hB (lst (lst .null A) C) (lst .null A)]
  · rw [seg_append]
    refine ⟨seg_frame (fun e he => w4 _ ?_) sA2, ?_⟩
    · intro n hn hh; injection hh with hh
      exact dACB e.1 (mem_addrs he) n (List.mem_append_left _ hn) hh
    · rw [hlA]
      refine seg_frame (fun e he => w4 _ ?_) v2
      intro n hn hh; injection hh with hh
      exact dCB n hn e.1 (mem_addrs he) hh.symm
  · rw [addrs_append, List.nodup_append]
    exact ⟨ndA, ndB, fun a ha b hb => dACB a ha b (List.mem_append_right _ hb)⟩
  · intro n hn
    rw [same.fresh]
    apply h.lt
    rw [addrs_append] at hn ⊢
    rcases List.mem_append.mp hn with hn | hn
    · exact List.mem_append_left _ hn
    · rw [addrs_append]; exact List.mem_append_right _ (List.mem_append_right _ hn)
  · have := h.len
    simp only [List.length_append] at this ⊢
    rw [same.fresh]; omega
  · intro p hp1 hp2 hp3 hp4
    apply hcell
    · rw [hnAe]; exact hp3 nA (by rw [addrs_append]; exact List.mem_append_left _ hnA)
    · rw [hBn]; exact hp3 ne (by rw [addrs_append, addrs_append]; exact List.mem_append_right _ (List.mem_append_right _ hne'))
    · intro n hn; exact hp3 n (by rw [addrs_append, addrs_append]; exact List.mem_append_right _ (List.mem_append_left _ hn))
  · intro n hn hn'
    rw [addrs_append, addrs_append] at hn
    rw [addrs_append, List.mem_append, not_or] at hn'
    rcases List.mem_append.mp hn with hh | hh
    · exact absurd hh hn'.1
    · rcases List.mem_append.mp hh with hh | hh
      · exact w3 n hh
      · exact absurd hh hn'.2
  · intro i hi; rw [same.head, same.tail]; exact ⟨rfl, rfl⟩
  · rw [same.fresh]; exact Nat.le_refl _
  · intro n hn
    left
    rw [addrs_append] at hn ⊢
    rcases List.mem_append.mp hn with hn | hn
    · exact List.mem_append_left _ hn
    · rw [addrs_append]; exact List.mem_append_right _ (List.mem_append_right _ hn)

theorem eraseRange_ok {m : Mem α} {o : Nat} {A C B : Entries α} (h : LInv m o (A ++ (C ++ B)))
    (hv : C ++ B ≠ []) {f : Nat} (hf : (A ++ (C ++ B)).length < f) :
    ∃ m', eraseRange f m o (hd (C ++ B) (.last o)) (hd B (.last o)) = .ok m' ∧ Post m m' o (A ++ (C ++ B)) (A ++ B) := by
  simp only [List.length_append] at hf
  by_cases hA : A = []
  · subst hA
    simp only [List.nil_append] at h ⊢
    have hh : hd (C ++ B) (.last o) = m.head o := by rw [h.head, hd_eq hv]
    unfold eraseRange
    by_cases hB : B = []
    · subst hB
      rw [if_pos ⟨hh, rfl⟩]
      simp only [List.append_nil] at h ⊢
      exact clean_ok h (by omega)
    · obtain ⟨ne, _, hnee⟩ := hd_mem hB (.last o)
      rw [if_neg (by rw [hnee]; simp), if_pos hh]
      exact popFrontUntil_ok hB C h f (by omega)
  · by_cases hB : B = []
    · subst hB
      simp only [List.append_nil] at h hv ⊢
      obtain ⟨c, C', rfl⟩ : ∃ c C', C = c :: C' := by
        cases C with
        | nil => exact absurd rfl hv
        | cons c C => exact ⟨c, C, rfl⟩
      simp only [List.length_cons, List.length_nil] at hf
      have hhd := head_not_in (n := c.1) h hA (by simp)
      obtain ⟨m1, p1, p2⟩ := popBackUntil_ok C'.length C' rfl h f (by omega)
      obtain ⟨D, d, rfl⟩ : ∃ D d, A = D ++ [d] := by
        rcases snoc_cases A with h0 | h0
        · exact absurd h0 hA
        · exact h0
      obtain ⟨m2, q1, q2⟩ := popBack_ok (n1 := d.1) (a1 := d.2) (n2 := c.1) (a2 := c.2) p2.inv
      refine ⟨m2, ?_, p2.trans q2 (Or.inl ?_)⟩
      · unfold eraseRange
        simp only [hd_cons, hd_nil]
        rw [if_neg (fun hh => hhd hh.1.symm), if_neg (fun hh => hhd hh.symm), if_pos trivial]
        simp only [p1, Res.ok_bind]; exact q1
      · intro n hn
        simp only [addrs_append, addrs_cons, addrs_nil, List.mem_append, List.mem_cons, List.not_mem_nil, or_false] at hn ⊢
        rcases hn with h | h
        · exact Or.inl h
        · exact Or.inr (Or.inl h)
    · exact eraseRange_mid h hA hB (by omega)

end Flame.LL
