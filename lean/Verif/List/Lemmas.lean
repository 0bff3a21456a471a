import Verif.List.Model

/-! # Representation of a linked list and its operations -/

namespace Flame.LL
variable {α : Type}

/-- Nodes (address, value) of a list. -/
abbrev Entries (α : Type) := List (Nat × α)

/-- First node of `es`, or `q`. -/
def hd (es : Entries α) (q : Ptr) : Ptr :=
  match es with
  | [] => q
  | e :: _ => .node e.1

/-- Last node of `es`, or `p`. -/
def lst (p : Ptr) : Entries α → Ptr
  | [] => p
  | e :: es => lst (.node e.1) es

/-- `es` is laid out in memory as a doubly linked segment between `p` and `q`. -/
def Seg (m : Mem α) : Ptr → Entries α → Ptr → Prop
  | _, [], _ => True
  | p, e :: es, q => m.cell (.node e.1) = some ⟨p, hd es q, some e.2⟩ ∧ Seg m (.node e.1) es q

@[simp] theorem hd_nil (q : Ptr) : hd ([] : Entries α) q = q := rfl
@[simp] theorem hd_cons (e : Nat × α) (es : Entries α) (q : Ptr) : hd (e :: es) q = .node e.1 := rfl
@[simp] theorem lst_nil (p : Ptr) : lst p ([] : Entries α) = p := rfl
@[simp] theorem lst_cons (p : Ptr) (e : Nat × α) (es : Entries α) : lst p (e :: es) = lst (.node e.1) es := rfl

theorem hd_append (A B : Entries α) (q : Ptr) : hd (A ++ B) q = hd A (hd B q) := by
  cases A <;> rfl

theorem lst_append (A B : Entries α) (p : Ptr) : lst p (A ++ B) = lst (lst p A) B := by
  induction A generalizing p with
  | nil => rfl
  | cons a A ih => exact ih _

theorem lst_snoc (A : Entries α) (e : Nat × α) (p : Ptr) : lst p (A ++ [e]) = .node e.1 := by
  rw [lst_append]; rfl

theorem seg_append (m : Mem α) (p : Ptr) (A B : Entries α) (q : Ptr) :
    Seg m p (A ++ B) q ↔ Seg m p A (hd B q) ∧ Seg m (lst p A) B q := by
  induction A generalizing p with
  | nil => simp [Seg]
  | cons a A ih => simp only [List.cons_append, Seg, ih, hd_append, lst_cons, and_assoc]

theorem seg_frame {m m' : Mem α} {p q : Ptr} {es : Entries α}
    (h : ∀ e ∈ es, m'.cell (.node e.1) = m.cell (.node e.1)) (s : Seg m p es q) : Seg m' p es q := by
  induction es generalizing p with
  | nil => trivial
  | cons e es ih =>
    refine ⟨?_, ih (fun x hx => h x (List.mem_cons_of_mem _ hx)) s.2⟩
    rw [h e (List.mem_cons_self ..)]; exact s.1

theorem seg_cell {m : Mem α} {p q : Ptr} {es : Entries α} (s : Seg m p es q) {e : Nat × α} (he : e ∈ es) :
    ∃ c, m.cell (.node e.1) = some c ∧ c.val = some e.2 := by
  induction es generalizing p with
  | nil => cases he
  | cons x es ih =>
    rcases List.mem_cons.mp he with h | h
    · subst h; exact ⟨_, s.1, rfl⟩
    · exact ih s.2 h

/-- Addresses of the entries. -/
def addrs (es : Entries α) : List Nat := es.map (·.1)

@[simp] theorem addrs_nil : addrs ([] : Entries α) = [] := rfl
@[simp] theorem addrs_cons (e : Nat × α) (es : Entries α) : addrs (e :: es) = e.1 :: addrs es := rfl
@[simp] theorem addrs_append (A B : Entries α) : addrs (A ++ B) = addrs A ++ addrs B := by simp [addrs]

theorem mem_addrs {es : Entries α} {e : Nat × α} (h : e ∈ es) : e.1 ∈ addrs es := List.mem_map_of_mem h

/-- List object `o` holds exactly the entries `es`. -/
structure LInv (m : Mem α) (o : Nat) (es : Entries α) : Prop where
  first : m.cell (.first o) = some ⟨.null, hd es .null, none⟩
  last : m.cell (.last o) = some ⟨lst .null es, .null, none⟩
  head : m.head o = hd es .null
  tail : m.tail o = lst .null es
  seg : Seg m (.first o) es (.last o)
  nodup : (addrs es).Nodup
  lt : ∀ n ∈ addrs es, n < m.fresh
  len : es.length ≤ m.fresh

/-- What an operation on object `o` that turns `es` into `es'` does to the whole memory. -/
structure Post (m m' : Mem α) (o : Nat) (es es' : Entries α) : Prop where
  inv : LInv m' o es'
  frame : ∀ p, p ≠ .first o → p ≠ .last o → (∀ n ∈ addrs es, p ≠ .node n) → (∀ n ∈ addrs es', p ≠ .node n) →
    m'.cell p = m.cell p
  freed : ∀ n ∈ addrs es, n ∉ addrs es' → m'.cell (.node n) = none
  heads : ∀ i, i ≠ o → m'.head i = m.head i ∧ m'.tail i = m.tail i
  fresh : m.fresh ≤ m'.fresh
  new : ∀ n ∈ addrs es', n ∈ addrs es ∨ (m.fresh ≤ n ∧ n < m'.fresh)

theorem Post.refl {m : Mem α} {o : Nat} {es : Entries α} (h : LInv m o es) : Post m m o es es :=
  ⟨h, fun _ _ _ _ _ => rfl, fun _ h1 h2 => absurd h1 h2, fun _ _ => ⟨rfl, rfl⟩, Nat.le_refl _, fun _ h => Or.inl h⟩

theorem Post.trans {m m' m'' : Mem α} {o : Nat} {es es' es'' : Entries α} (h1 : Post m m' o es es')
    (h2 : Post m' m'' o es' es'') (hsub : (∀ n ∈ addrs es', n ∈ addrs es) ∨ (∀ n ∈ addrs es', n ∈ addrs es'')) :
    Post m m'' o es es'' := by
  refine ⟨h2.inv, ?_, ?_, ?_, Nat.le_trans h1.fresh h2.fresh, ?_⟩
  · intro p hf hl he he''
    have he' : ∀ n ∈ addrs es', p ≠ .node n := by
      intro n hn
      rcases hsub with hs | hs
      · exact he n (hs n hn)
      · exact he'' n (hs n hn)
    rw [h2.frame p hf hl he' he'', h1.frame p hf hl he he']
  · intro n hn hn''
    by_cases hn' : n ∈ addrs es'
    · exact h2.freed n hn' hn''
    · have h := h1.freed n hn hn'
      rw [← h]
      apply h2.frame _ (by simp) (by simp)
      · intro k hk he; injection he with he; subst he; exact hn' hk
      · intro k hk he; injection he with he; subst he; exact hn'' hk
  · intro i hi
    exact ⟨(h2.heads i hi).1.trans (h1.heads i hi).1, (h2.heads i hi).2.trans (h1.heads i hi).2⟩
  · intro n hn
    rcases h2.new n hn with h | ⟨h, h'⟩
    · rcases h1.new n h with h | ⟨h, h'⟩
      · exact Or.inl h
      · exact Or.inr ⟨h, Nat.lt_of_lt_of_le h' h2.fresh⟩
    · exact Or.inr ⟨Nat.le_trans h1.fresh h, h'⟩

/-! ## Pushes -/

theorem hd_ne_null {es : Entries α} (h : es ≠ []) : hd es .null ≠ .null := by
  cases es with
  | nil => exact absurd rfl h
  | cons e es => simp

theorem snoc_cases (es : Entries α) : es = [] ∨ ∃ A e, es = A ++ [e] := by
  cases h : es.reverse with
  | nil => left; simpa using h
  | cons e r =>
    right
    refine ⟨r.reverse, e, ?_⟩
    have := congrArg List.reverse h
    simpa using this

theorem pushBack_ok {m : Mem α} {o : Nat} {es : Entries α} (h : LInv m o es) (x : α) :
    ∃ m', pushBack m o x = .ok m' ∧ Post m m' o es (es ++ [(m.fresh, x)]) := by
  have hfresh : m.fresh ∉ addrs es := fun hm => Nat.lt_irrefl _ (h.lt _ hm)
  rcases snoc_cases es with rfl | ⟨A, ⟨n, a⟩, rfl⟩
  · have h1 := h.first; have h2 := h.last; have h3 := h.head; have h4 := h.tail; have h5 := h.len
    simp only [hd_nil, lst_nil] at h1 h2 h3 h4
    simp only [pushBack, alloc, h3, ne_eq, not_true_eq_false, if_false, updateLinks, updateHeadLinks, updateTailLinks,
      setHead, setTail, setNext, setPrev, store, h1, h2, Res.ok_bind, reduceCtorEq, if_true]
    refine ⟨_, rfl, ⟨?_, ?_, ?_, ?_, ?_, ?_, ?_, ?_⟩, ?_, ?_, ?_, ?_, ?_⟩
    · simp
    · simp
    · simp
    · simp
    · simp [Seg]
    · simp
    · simp
    · simp
    · intro p hp1 hp2 _ hp4
      have := hp4 m.fresh (by simp)
      simp [hp1, hp2, this]
    · simp
    · intro i hi; simp [hi]
    · simp
    · simp
  · have h1 := h.first; have h2 := h.last; have h3 := h.head; have h4 := h.tail; have h5 := h.len
    have h6 := h.seg; have h7 := h.nodup; have h8 := h.lt
    simp only [lst_snoc, hd_append, hd_cons, hd_nil, addrs_append, addrs_cons, addrs_nil] at h1 h2 h3 h4 h7 h8 hfresh
    simp only [seg_append, Seg, hd_cons, hd_nil, and_true] at h6
    have hne : hd A (Ptr.node n) ≠ .null := by cases A <;> simp
    have hnf : m.fresh ≠ n := by intro he; apply hfresh; simp [he]
    have hnf' : n ≠ m.fresh := Ne.symm hnf
    have hnA : n ∉ addrs A := by
      intro hm
      have := (List.nodup_append.mp h7).2.2 n hm n (by simp)
      exact this rfl
    have hfA : m.fresh ∉ addrs A := fun hm => hfresh (by simp [hm])
    simp only [pushBack, alloc, h3, h4, ne_eq, hne, not_false_eq_true, if_true, updateTailLinks, setTail, setNext, setPrev,
      store, load, h1, h2, h6.2, Res.ok_bind, reduceCtorEq, Ptr.node.injEq, hnf, hnf', if_false]
    refine ⟨_, rfl, ⟨?_, ?_, ?_, ?_, ?_, ?_, ?_, ?_⟩, ?_, ?_, ?_, ?_, ?_⟩
    · simp [h1, hd_append]
    · simp [lst_append]
    · simp [h3, hd_append]
    · simp [lst_append]
    · rw [List.append_assoc, seg_append]
      refine ⟨seg_frame ?_ h6.1, ?_⟩
      · intro e he
        have e1 : e.1 ≠ n := fun hh => hnA (hh ▸ mem_addrs he)
        have e2 : e.1 ≠ m.fresh := fun hh => hfA (hh ▸ mem_addrs he)
        simp [e1, e2]
      · simp [Seg, hnf, hnf']
    · simp only [addrs_append, addrs_cons, addrs_nil]
      rw [List.nodup_append]
      refine ⟨h7, by simp, ?_⟩
      intro a ha b hb
      simp at hb; subst hb
      intro he; subst he; exact hfresh ha
    · intro k hk
      simp only [addrs_append, addrs_cons, addrs_nil, List.mem_append, List.mem_singleton] at hk
      rcases hk with hk | hk
      · have := h8 k (by simpa using hk); simp only; omega
      · simp only; omega
    · simp at h5 ⊢; omega
    · intro p hp1 hp2 hp3 hp4
      have a1 := hp4 m.fresh (by simp)
      have a2 := hp3 n (by simp)
      simp [hp1, hp2, a1, a2]
    · intro k hk hk'; simp only [addrs_append, List.mem_append] at hk hk'; exact absurd (Or.inl hk) hk'
    · intro i hi; simp [hi]
    · simp
    · intro k hk
      simp only [addrs_append, addrs_cons, addrs_nil, List.mem_append, List.mem_singleton] at hk ⊢
      rcases hk with hk | hk
      · exact Or.inl hk
      · right; omega

theorem pushFront_ok {m : Mem α} {o : Nat} {es : Entries α} (h : LInv m o es) (x : α) :
    ∃ m', pushFront m o x = .ok m' ∧ Post m m' o es ((m.fresh, x) :: es) := by
  have hfresh : m.fresh ∉ addrs es := fun hm => Nat.lt_irrefl _ (h.lt _ hm)
  cases es with
  | nil =>
    obtain ⟨m', h1, h2⟩ := pushBack_ok h x
    refine ⟨m', ?_, h2⟩
    rw [← h1]
    have h3 := h.head
    simp only [hd_nil] at h3
    simp [pushFront, pushBack, alloc, h3]
  | cons e B =>
    obtain ⟨n, a⟩ := e
    have h1 := h.first; have h2 := h.last; have h3 := h.head; have h4 := h.tail; have h5 := h.len
    have h6 := h.seg; have h7 := h.nodup; have h8 := h.lt
    simp only [hd_cons, lst_cons, addrs_cons] at h1 h2 h3 h4 h7 h8 hfresh
    simp only [Seg] at h6
    have hnf : m.fresh ≠ n := by intro he; apply hfresh; simp [he]
    have hnf' : n ≠ m.fresh := Ne.symm hnf
    have hnB : n ∉ addrs B := (List.nodup_cons.mp h7).1
    have hfB : m.fresh ∉ addrs B := fun hm => hfresh (by simp [hm])
    simp only [pushFront, alloc, h3, ne_eq, not_false_eq_true, if_true, updateHeadLinks, setHead, setNext, setPrev,
      store, load, h1, h2, h6.1, Res.ok_bind, reduceCtorEq, Ptr.node.injEq, hnf, hnf', if_false]
    refine ⟨_, rfl, ⟨?_, ?_, ?_, ?_, ?_, ?_, ?_, ?_⟩, ?_, ?_, ?_, ?_, ?_⟩
    · simp
    · simp [h2]
    · simp
    · simp [h4]
    · refine ⟨by simp, ?_, seg_frame ?_ h6.2⟩
      · simp [hnf']
      · intro e he
        have e1 : e.1 ≠ n := fun hh => hnB (hh ▸ mem_addrs he)
        have e2 : e.1 ≠ m.fresh := fun hh => hfB (hh ▸ mem_addrs he)
        simp [e1, e2]
    · exact List.nodup_cons.mpr ⟨hfresh, h7⟩
    · intro k hk
      simp only [addrs_cons, List.mem_cons] at hk
      rcases hk with hk | hk
      · subst hk; simp
      · have := h8 k (by simpa using hk); simp only; omega
    · simp at h5 ⊢; omega
    · intro p hp1 hp2 hp3 hp4
      have a1 := hp4 m.fresh (by simp)
      have a2 := hp3 n (by simp)
      simp [hp1, a1, a2]
    · intro k hk hk'; exact absurd (List.mem_cons_of_mem _ hk) hk'
    · intro i hi; simp [hi]
    · simp
    · intro k hk
      simp only [addrs_cons, List.mem_cons] at hk ⊢
      rcases hk with hk | hk
      · right; subst hk; simp
      · exact Or.inl hk

/-! ## Reading -/

theorem sizeLoop_ok {m : Mem α} {o : Nat} {es : Entries α} {p : Ptr} (s : Seg m p es (.last o)) :
    ∀ f, es.length < f → sizeLoop m o f (hd es (.last o)) = .ok es.length := by
  induction es generalizing p with
  | nil =>
    intro f hf
    obtain ⟨f, rfl⟩ : ∃ g, f = g + 1 := ⟨f - 1, by omega⟩
    simp [sizeLoop]
  | cons e es ih =>
    intro f hf
    simp only [List.length_cons] at hf
    obtain ⟨f, rfl⟩ : ∃ g, f = g + 1 := ⟨f - 1, by omega⟩
    rw [sizeLoop, if_neg (by simp)]
    simp only [hd_cons, load, s.1, Res.ok_bind, ih s.2 f (by omega), List.length_cons]

theorem walk_ok {m : Mem α} {o : Nat} {es : Entries α} {p : Ptr} (s : Seg m p es (.last o)) :
    ∀ f, es.length < f → walk m o f (hd es (.last o)) = .ok (es.map (·.2)) := by
  induction es generalizing p with
  | nil =>
    intro f hf
    obtain ⟨f, rfl⟩ : ∃ g, f = g + 1 := ⟨f - 1, by omega⟩
    simp [walk]
  | cons e es ih =>
    intro f hf
    simp only [List.length_cons] at hf
    obtain ⟨f, rfl⟩ : ∃ g, f = g + 1 := ⟨f - 1, by omega⟩
    rw [walk, if_neg (by simp)]
    simp only [hd_cons, load, s.1, Res.ok_bind, ih s.2 f (by omega), List.map_cons]

theorem walkBack_ok {m : Mem α} {o : Nat} (k : Nat) : ∀ {es : Entries α} {q : Ptr}, es.length = k → Seg m (.first o) es q →
    ∀ f, es.length < f → walkBack m o f (lst (.first o) es) = .ok (es.map (·.2)).reverse := by
  induction k with
  | zero =>
    intro es q hk s f hf
    have : es = [] := List.eq_nil_of_length_eq_zero hk
    subst this
    obtain ⟨f, rfl⟩ : ∃ g, f = g + 1 := ⟨f - 1, by omega⟩
    simp [walkBack]
  | succ k ih =>
    intro es q hk s f hf
    rcases snoc_cases es with rfl | ⟨A, e, rfl⟩
    · simp at hk
    · simp only [List.length_append, List.length_singleton] at hk hf
      obtain ⟨f, rfl⟩ : ∃ g, f = g + 1 := ⟨f - 1, by omega⟩
      rw [seg_append] at s
      rw [lst_snoc, walkBack, if_neg (by simp)]
      simp only [load, s.2.1, Res.ok_bind, ih (show A.length = k by omega) s.1 f (by omega), List.map_append,
        List.map_cons, List.map_nil, List.reverse_append, List.reverse_singleton, List.singleton_append]

theorem hd_eq {es : Entries α} (h : es ≠ []) (p q : Ptr) : hd es p = hd es q := by
  cases es with
  | nil => exact absurd rfl h
  | cons e es => rfl

theorem lst_eq {es : Entries α} (h : es ≠ []) (p q : Ptr) : lst p es = lst q es := by
  cases es with
  | nil => exact absurd rfl h
  | cons e es => rfl

theorem size_ok {m : Mem α} {o : Nat} {es : Entries α} (h : LInv m o es) (hne : es ≠ []) {f : Nat} (hf : es.length < f) :
    size f m o = .ok es.length := by
  unfold size
  rw [h.head, hd_eq hne _ (.last o)]
  exact sizeLoop_ok h.seg f hf

theorem toList_ok {m : Mem α} {o : Nat} {es : Entries α} (h : LInv m o es) (hne : es ≠ []) {f : Nat} (hf : es.length < f) :
    toList f m o = .ok (es.map (·.2)) := by
  unfold toList
  rw [h.head, hd_eq hne _ (.last o)]
  exact walk_ok h.seg f hf

theorem toListReverse_ok {m : Mem α} {o : Nat} {es : Entries α} (h : LInv m o es) (hne : es ≠ []) {f : Nat}
    (hf : es.length < f) : toListReverse f m o = .ok (es.map (·.2)).reverse := by
  unfold toListReverse
  rw [h.tail, lst_eq hne _ (.first o)]
  exact walkBack_ok es.length rfl h.seg f hf

theorem iterAt_ok {m : Mem α} {o : Nat} : ∀ {A B : Entries α}, LInv m o (A ++ B) → A ++ B ≠ [] →
    iterAt m o A.length = .ok (hd B (.last o)) := by
  intro A
  refine snocInduction (P := fun A => ∀ {B : Entries α}, LInv m o (A ++ B) → A ++ B ≠ [] →
    iterAt m o A.length = .ok (hd B (.last o))) ?_ ?_ A
  · intro B h hne
    simp only [List.nil_append] at h hne
    simp only [List.length_nil, iterAt, h.head]
    rw [hd_eq hne]
  · intro A e ih B h hne
    have h' : LInv m o (A ++ (e :: B)) := by simpa using h
    have := ih h' (by simp)
    simp only [List.length_append, List.length_singleton, iterAt, this, Res.ok_bind, hd_cons]
    have s := h'.seg
    rw [seg_append] at s
    simp only [load, s.2.1, Res.ok_bind]

/-! ## Single insert -/

theorem insert_mid {m : Mem α} {o : Nat} {A B : Entries α} {n1 n2 : Nat} {a1 a2 : α}
    (h : LInv m o (A ++ [(n1, a1)] ++ (n2, a2) :: B)) (x : α) {f : Nat}
    (hf : (A ++ [(n1, a1)] ++ (n2, a2) :: B).length < f) :
    ∃ m', insert f m o (.node n2) x = .ok m' ∧
      Post m m' o (A ++ [(n1, a1)] ++ (n2, a2) :: B) (A ++ [(n1, a1)] ++ (m.fresh, x) :: (n2, a2) :: B) := by
  have hs := size_ok h (by simp) hf
  have hfresh : m.fresh ∉ addrs (A ++ [(n1, a1)] ++ (n2, a2) :: B) := fun hm => Nat.lt_irrefl _ (h.lt _ hm)
  have h1 := h.first; have h2 := h.last; have h3 := h.head; have h4 := h.tail; have h5 := h.len
  have h6 := h.seg; have h7 := h.nodup; have h8 := h.lt
  simp only [addrs_append, addrs_cons, addrs_nil] at h7 hfresh
  simp only [seg_append, Seg, hd_cons, hd_nil, and_true, lst_snoc] at h6
  obtain ⟨⟨sA, c1⟩, c2, sB⟩ := h6
  simp only [List.nodup_append, List.nodup_cons, List.mem_append, List.mem_cons, List.not_mem_nil, or_false] at h7
  simp only [List.mem_append, List.mem_cons, List.not_mem_nil, or_false, not_or] at hfresh
  have n12 : n1 ≠ n2 := h7.2.2 n1 (Or.inr rfl) n2 (Or.inl rfl)
  have n21 := n12.symm
  have f1 := hfresh.1.2; have f2 := hfresh.2.1
  have f1' := Ne.symm f1; have f2' := Ne.symm f2
  have hA1 : n1 ∉ addrs A := fun hm => h7.1.2.2 n1 hm n1 rfl rfl
  have hA2 : n2 ∉ addrs A := fun hm => h7.2.2 n2 (Or.inl hm) n2 (Or.inl rfl) rfl
  have hB2 : n2 ∉ addrs B := h7.2.1.1
  have hB1 : n1 ∉ addrs B := fun hm => h7.2.2 n1 (Or.inr rfl) n1 (Or.inr hm) rfl
  have hhd : m.head o ≠ .node n2 := by
    rw [h3]
    cases A with
    | nil => simpa using n12
    | cons e A => simp only [List.cons_append, hd_cons, ne_eq, Ptr.node.injEq]; intro he; apply hA2; simp [he]
  have hl0 : (A ++ [(n1, a1)] ++ (n2, a2) :: B).length ≠ 0 := by simp
  simp only [insert, hs, Res.ok_bind, if_neg hl0, Ne.symm hhd, if_false, alloc, setNext, setPrev,
      store, load, c1, c2, reduceCtorEq, Ptr.node.injEq, f1, f1', f2, f2', if_true, n12, n21]
  refine ⟨_, rfl, ⟨?_, ?_, ?_, ?_, ?_, ?_, ?_, ?_⟩, ?_, ?_, ?_, ?_, ?_⟩
  · simp [h1, hd_append]
  · simp [h2, lst_append]
  · simp [h3, hd_append]
  · simp [h4, lst_append]
  · simp only [seg_append, Seg, hd_cons, hd_nil, and_true, lst_snoc]
    refine ⟨⟨seg_frame ?_ sA, ?_⟩, ?_, ?_, seg_frame ?_ sB⟩
    · intro e he
      have e1 : e.1 ≠ n1 := fun hh => hA1 (hh ▸ mem_addrs he)
      have e2 : e.1 ≠ n2 := fun hh => hA2 (hh ▸ mem_addrs he)
      have e3 : e.1 ≠ m.fresh := fun hh => hfresh.1.1 (hh ▸ mem_addrs he)
      simp [e1, e2, e3]
    · simp [n12, f1']
    · simp
    · simp [f2']
    · intro e he
      have e1 : e.1 ≠ n1 := fun hh => hB1 (hh ▸ mem_addrs he)
      have e2 : e.1 ≠ n2 := fun hh => hB2 (hh ▸ mem_addrs he)
      have e3 : e.1 ≠ m.fresh := fun hh => hfresh.2.2 (hh ▸ mem_addrs he)
      simp [e1, e2, e3]
  · have hp : (addrs (A ++ [(n1, a1)] ++ (m.fresh, x) :: (n2, a2) :: B)).Perm
        (m.fresh :: addrs (A ++ [(n1, a1)] ++ (n2, a2) :: B)) := by
      simp only [addrs_append, addrs_cons]; exact List.perm_middle
    rw [hp.nodup_iff, List.nodup_cons]
    exact ⟨fun hm => Nat.lt_irrefl _ (h.lt _ hm), h.nodup⟩
  · intro k hk
    simp only [addrs_append, addrs_cons, addrs_nil, List.mem_append, List.mem_cons] at hk h8
    simp only
    rcases hk with hk | hk | hk
    · have := h8 k (Or.inl hk); omega
    · omega
    · have := h8 k (Or.inr hk); omega
  · simp at h5 ⊢; omega
  · intro p hp1 hp2 hp3 hp4
    have a1 := hp4 m.fresh (by simp)
    have a2 := hp3 n1 (by simp)
    have a3 := hp3 n2 (by simp)
    simp [a1, a2, a3]
  · intro k hk hk'
    exfalso; apply hk'
    simp only [addrs_append, addrs_cons, addrs_nil, List.mem_append, List.mem_cons] at hk ⊢
    rcases hk with hk | hk
    · exact Or.inl hk
    · exact Or.inr (Or.inr hk)
  · intro i hi; simp
  · simp
  · intro k hk
    simp only [addrs_append, addrs_cons, addrs_nil, List.mem_append, List.mem_cons] at hk ⊢
    rcases hk with hk | hk | hk
    · exact Or.inl (Or.inl hk)
    · right; omega
    · exact Or.inl (Or.inr hk)

theorem insert_ok {m : Mem α} {o : Nat} {A B : Entries α} (h : LInv m o (A ++ B)) (hne : A ++ B ≠ []) (x : α) {f : Nat}
    (hf : (A ++ B).length < f) :
    ∃ m', insert f m o (hd B (.last o)) x = .ok m' ∧ Post m m' o (A ++ B) (A ++ (m.fresh, x) :: B) := by
  have hs := size_ok h hne hf
  have hl : (A ++ B).length ≠ 0 := fun he => hne (List.eq_nil_of_length_eq_zero he)
  rcases snoc_cases A with rfl | ⟨A, ⟨n1, a1⟩, rfl⟩
  · simp only [List.nil_append] at *
    have hh : hd B (.last o) = m.head o := by rw [h.head, hd_eq hne]
    simp only [insert, hs, Res.ok_bind, if_neg hl, hh, if_true]
    exact pushFront_ok h x
  · cases B with
    | nil =>
      have hh : Ptr.last o ≠ m.head o := by
        rw [h.head]; cases A <;> simp
      simp only [insert, hs, Res.ok_bind, if_neg hl, hd_nil, if_neg hh, if_true]
      have := pushBack_ok h x
      simpa using this
    | cons e B => exact insert_mid h x hf

end Flame.LL
