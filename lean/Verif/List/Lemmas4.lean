import Verif.List.Lemmas3

/-! Copying and moving lists: copy constructor, move constructor, move assignment. -/

namespace Flame.LL

variable {α : Type}

/-- Two lists with disjoint nodes. -/
def Disj (A B : Entries α) : Prop := ∀ n ∈ addrs A, n ∉ addrs B

theorem Post.other {m m' : Mem α} {d s : Nat} {D D' es : Entries α} (h : Post m m' d D D') (hs : LInv m s es) (hsd : s ≠ d)
    (hd : Disj es D) : LInv m' s es ∧ Disj es D' := by
  have hdis : Disj es D' := by
    intro n hn hn'
    rcases h.new n hn' with h1 | h1
    · exact hd n hn h1
    · have := hs.lt n hn; omega
  refine ⟨hs.mono h.fresh (h.heads s hsd).1 (h.heads s hsd).2 ?_ ?_ ?_, hdis⟩
  · exact h.frame _ (by simpa using hsd) (by simp) (by simp) (by simp)
  · exact h.frame _ (by simp) (by simpa using hsd) (by simp) (by simp)
  · intro n hn
    refine h.frame _ (by simp) (by simp) ?_ ?_
    · intro k hk he; injection he with he; subst he; exact hd n hn hk
    · intro k hk he; injection he with he; subst he; exact hdis n hn hk

theorem construct_ok (m : Mem α) (d : Nat) : LInv (construct m d) d [] := by
  refine ⟨?_, ?_, ?_, ?_, trivial, by simp, by simp, by simp⟩ <;> simp [construct, setTail, setHead, store]

theorem construct_other {m : Mem α} {s d : Nat} {es : Entries α} (hs : LInv m s es) (hsd : s ≠ d) :
    LInv (construct m d) s es := by
  refine hs.mono (Nat.le_refl _) ?_ ?_ ?_ ?_ ?_ <;> simp [construct, setTail, setHead, store, hsd]

theorem copyLoop_ok {s d : Nat} (hsd : s ≠ d) : ∀ (R A D : Entries α) {m : Mem α}, LInv m s (A ++ R) → LInv m d D →
    Disj (A ++ R) D → ∀ f, R.length < f →
    ∃ m' N, copyLoop s d f m (hd R (.last s)) = .ok m' ∧ N.map (·.2) = R.map (·.2) ∧ Post m m' d D (D ++ N) := by
  intro R
  induction R with
  | nil =>
    intro A D m hs hdd dj f hf
    obtain ⟨f, rfl⟩ : ∃ g, f = g + 1 := ⟨f - 1, by omega⟩
    exact ⟨m, [], by simp [copyLoop], rfl, by simpa using Post.refl hdd⟩
  | cons e R ih =>
    intro A D m hs hdd dj f hf
    obtain ⟨f, rfl⟩ : ∃ g, f = g + 1 := ⟨f - 1, by omega⟩
    have sg := hs.seg
    rw [seg_append] at sg
    obtain ⟨m1, p1, p2⟩ := pushBack_ok hdd e.2
    obtain ⟨hs1, dj1⟩ := p2.other hs hsd dj
    have sg1 := hs1.seg
    rw [seg_append] at sg1
    have hs1' : LInv m1 s ((A ++ [e]) ++ R) := by simpa using hs1
    have dj1' : Disj ((A ++ [e]) ++ R) (D ++ [(m.fresh, e.2)]) := by simpa using dj1
    obtain ⟨m2, N, q1, q2, q3⟩ := ih (A ++ [e]) (D ++ [(m.fresh, e.2)]) hs1' p2.inv dj1' f (by simp at hf; omega)
    refine ⟨m2, (m.fresh, e.2) :: N, ?_, by simp [q2], ?_⟩
    · simp only [copyLoop, hd_cons, reduceCtorEq, if_false, load, sg.2.1, Res.ok_bind, p1, sg1.2.1]
      exact q1
    · have := p2.trans q3 (Or.inr (by intro n hn; rw [addrs_append]; exact List.mem_append_left _ hn))
      simpa using this

theorem updateHeadLinks_id {m : Mem α} {o : Nat} {es : Entries α} (h : LInv m o es) (hne : es ≠ []) :
    updateHeadLinks m o = .ok m := by
  cases es with
  | nil => exact absurd rfl hne
  | cons e es =>
    have h1 := h.first; have h3 := h.head
    obtain ⟨c, sC⟩ := h.seg
    simp only [hd_cons] at h1 h3
    have e1 : store m (.first o) ⟨.null, .node e.1, none⟩ = m := by
      simp only [store]
      rcases m with ⟨cell, _, _, _⟩
      simp only at h1 ⊢
      congr 1
      funext q
      by_cases hq : q = .first o
      · subst hq; simp [h1]
      · simp [hq]
    have e2 : store m (.node e.1) ⟨.first o, hd es (.last o), some e.2⟩ = m := by
      simp only [store]
      rcases m with ⟨cell, _, _, _⟩
      simp only at c ⊢
      congr 1
      funext q
      by_cases hq : q = .node e.1
      · subst hq; simp [c]
      · simp [hq]
    simp only [updateHeadLinks, h3, setNext_some h1, Res.ok_bind, e1]
    rw [setPrev_some c, e2]

/-- The copy constructor from a nonempty list `s`. -/
theorem copyCtor_ok {m : Mem α} {s d : Nat} {es : Entries α} (hs : LInv m s es) (hsd : s ≠ d) (hne : es ≠ []) {f : Nat}
    (hf : es.length < f) :
    ∃ m' N, copyCtor f m d s = .ok m' ∧ N.map (·.2) = es.map (·.2) ∧ Post (construct m d) m' d [] N ∧ LInv m' s es ∧
      Disj es N := by
  have hc := construct_ok m d
  have hs1 := construct_other hs hsd
  have hsz := size_ok hs1 hne hf
  have dj : Disj ([] ++ es) ([] : Entries α) := by intro n _ h; simp at h
  obtain ⟨m', N, q1, q2, q3⟩ := copyLoop_ok hsd es [] [] (by simpa using hs1) hc dj f hf
  rw [List.nil_append] at q3
  have hN : N ≠ [] := by
    intro h; subst h
    have := congrArg List.length q2
    simp at this
    exact hne (List.eq_nil_of_length_eq_zero this.symm)
  obtain ⟨o1, o2⟩ := q3.other hs1 hsd (by simpa using dj)
  refine ⟨m', N, ?_, q2, q3, o1, o2⟩
  have hl : es.length ≠ 0 := fun he => hne (List.eq_nil_of_length_eq_zero he)
  have hh : (construct m d).head s = hd es (.last s) := by rw [hs1.head, hd_eq hne]
  simp only [copyCtor, hsz, Res.ok_bind, ne_eq, hl, not_false_eq_true, if_true, hh, q1]
  exact updateHeadLinks_id q3.inv hN

theorem cleanLinks_eq {m : Mem α} {o : Nat} {a b a' b' : Ptr} {v v' : Option α}
    (h1 : m.cell (.first o) = some ⟨a, b, v⟩) (h2 : m.cell (.last o) = some ⟨a', b', v'⟩) :
    cleanLinks m o = .ok (store (store m (.first o) ⟨.null, .null, v⟩) (.last o) ⟨.null, .null, v'⟩) := by
  simp only [cleanLinks, setPrev, setNext, h1, h2, Res.ok_bind, store, if_true, reduceCtorEq, if_false]
  congr 2
  funext q
  by_cases hq : q = .first o
  · subst hq; simp
  · by_cases hq' : q = .last o
    · subst hq'; simp
    · simp [hq, hq']

/-- Re-anchoring a nonempty chain at the sentinels of another object: `updateLinks`. -/
theorem updateLinks_ok {m : Mem α} {d : Nat} {es : Entries α} {p q : Ptr} (hne : es ≠ []) (sg : Seg m p es q) (nd : (addrs es).Nodup)
    (lt : ∀ n ∈ addrs es, n < m.fresh) (len : es.length ≤ m.fresh)
    (hh : m.head d = hd es .null) (ht : m.tail d = lst .null es)
    (h1 : m.cell (.first d) = some ⟨.null, .null, none⟩) (h2 : m.cell (.last d) = some ⟨.null, .null, none⟩) :
    ∃ m', updateLinks m d = .ok m' ∧ LInv m' d es ∧ Same m m' ∧
      (∀ q, q ≠ .first d → q ≠ .last d → (∀ n ∈ addrs es, q ≠ .node n) → m'.cell q = m.cell q) := by
  obtain ⟨n0, hn0, e0⟩ := hd_mem hne .null
  obtain ⟨n1, hn1, e1⟩ := lst_mem hne .null
  let ma := store m (.first d) ⟨.null, hd es .null, none⟩
  have sa : Seg ma p es q := seg_frame (fun e _ => by simp [ma, store]) sg
  obtain ⟨mb, b1, b2, b3, b4⟩ := setPrev_hd sa nd hne (.first d)
  let mc := store mb (.last d) ⟨lst .null es, .null, none⟩
  have sc : Seg mc (.first d) es q := seg_frame (fun e _ => by simp [mc, store]) b2
  obtain ⟨me, f1, f2, f3, f4⟩ := setNext_lst sc nd hne (.last d)
  have hlb : mb.cell (.last d) = some ⟨.null, .null, none⟩ := by
    rw [b3 _ (by rw [e0]; simp)]; simpa [ma, store] using h2
  refine ⟨me, ?_, ⟨?_, ?_, ?_, ?_, f2, nd, ?_, ?_⟩, ?_, ?_⟩
  · have x1 : setNext m (.first d) (m.head d) = .ok ma := by rw [setNext_some h1, hh]
    have x2 : setPrev ma (ma.head d) (.first d) = .ok mb := by
      show setPrev ma (m.head d) _ = _; rw [hh]; exact b1
    have x3 : setPrev mb (.last d) (mb.tail d) = .ok mc := by
      rw [setPrev_some hlb, b4.tail]; show Res.ok (store mb _ ⟨m.tail d, _, _⟩) = _; rw [ht]
    have x4 : setNext mc (mc.tail d) (.last d) = .ok me := by
      have : mc.tail d = lst .null es := by show mb.tail d = _; rw [b4.tail]; exact ht
      rw [this]; exact f1
    simp only [updateLinks, updateHeadLinks, updateTailLinks, x1, x2, x3, x4, Res.ok_bind]
  · rw [f3 _ (by rw [e1]; simp)]
    have : mc.cell (.first d) = mb.cell (.first d) := by simp [mc, store]
    rw [this, b3 _ (by rw [e0]; simp)]; simp [ma, store]
  · rw [f3 _ (by rw [e1]; simp)]; simp [mc, store]
  · rw [f4.head]; show mb.head d = _; rw [b4.head]; exact hh
  · rw [f4.tail]; show mb.tail d = _; rw [b4.tail]; exact ht
  · intro n hn; rw [f4.fresh]; show n < mb.fresh; rw [b4.fresh]; exact lt n hn
  · rw [f4.fresh]; show _ ≤ mb.fresh; rw [b4.fresh]; exact len
  · refine ⟨?_, ?_, ?_⟩
    · rw [f4.head]; show mb.head = _; rw [b4.head]; rfl
    · rw [f4.tail]; show mb.tail = _; rw [b4.tail]; rfl
    · rw [f4.fresh]; show mb.fresh = _; rw [b4.fresh]; rfl
  · intro r r1 r2 r3
    rw [f3 r (by rw [e1]; exact r3 n1 hn1)]
    have : mc.cell r = mb.cell r := by simp [mc, store, r2]
    rw [this, b3 r (by rw [e0]; exact r3 n0 hn0)]
    simp [ma, store, r1]

/-- The move constructor from a nonempty list. -/
theorem moveCtor_ok {m : Mem α} {s d : Nat} {es : Entries α} (hs : LInv m s es) (hsd : s ≠ d) (hne : es ≠ []) :
    ∃ m', moveCtor m d s = .ok m' ∧ LInv m' d es ∧ LInv m' s [] ∧ m'.fresh = m.fresh ∧
      (∀ i, i ≠ d → i ≠ s → m'.head i = m.head i ∧ m'.tail i = m.tail i) ∧
      (∀ q, q ≠ .first d → q ≠ .last d → q ≠ .first s → q ≠ .last s → (∀ n ∈ addrs es, q ≠ .node n) →
        m'.cell q = m.cell q) := by
  have hs1 := construct_other hs hsd
  let ma : Mem α := setTail (setHead (construct m d) d ((construct m d).head s)) d ((setHead (construct m d) d ((construct m d).head s)).tail s)
  let mb : Mem α := setTail (setHead ma s .null) s .null
  have c1 : mb.cell (.first s) = some ⟨.null, hd es .null, none⟩ := hs1.first
  have c2 : mb.cell (.last s) = some ⟨lst .null es, .null, none⟩ := hs1.last
  let mc := store (store mb (.first s) ⟨.null, .null, none⟩) (.last s) ⟨.null, .null, none⟩
  have hcl : cleanLinks mb s = .ok mc := cleanLinks_eq c1 c2
  have sg : Seg mc (.first s) es (.last s) := seg_frame (m := construct m d) (fun e _ => by
    simp [mc, mb, ma, store, setTail, setHead]) hs1.seg
  have hds : d ≠ s := Ne.symm hsd
  have k1 : mc.head d = hd es .null := by
    rw [← hs1.head]; simp [mc, mb, ma, store, setTail, setHead, hds, construct, hsd]
  have k2 : mc.tail d = lst .null es := by
    rw [← hs1.tail]; simp [mc, mb, ma, store, setTail, setHead, hds, construct, hsd]
  have k3 : mc.cell (.first d) = some ⟨.null, .null, none⟩ := by
    simp [mc, mb, ma, store, setTail, setHead, hds, construct]
  have k4 : mc.cell (.last d) = some ⟨.null, .null, none⟩ := by
    simp [mc, mb, ma, store, setTail, setHead, hds, construct]
  obtain ⟨m', u1, u2, u3, u4⟩ := updateLinks_ok hne sg hs.nodup hs.lt hs.len k1 k2 k3 k4
  refine ⟨m', ?_, u2, ?_, ?_, ?_, ?_⟩
  · have e : moveCtor m d s = cleanLinks mb s >>= fun m => updateLinks m d := rfl
    rw [e, hcl, Res.ok_bind, u1]
  · refine ⟨?_, ?_, ?_, ?_, trivial, by simp, by simp, by simp⟩
    · rw [u4 _ (by simpa using hsd) (by simp) (by simp)]; simp [mc, store]
    · rw [u4 _ (by simp) (by simpa using hsd) (by simp)]; simp [mc, store]
    · rw [u3.head]; simp [mc, mb, store, setTail, setHead]
    · rw [u3.tail]; simp [mc, mb, store, setTail, setHead]
  · rw [u3.fresh]; rfl
  · intro i i1 i2
    rw [u3.head, u3.tail]
    simp [mc, mb, ma, store, setTail, setHead, i1, i2, construct]
  · intro r r1 r2 r3 r4 r5
    rw [u4 r r1 r2 r5]
    simp [mc, mb, ma, store, setTail, setHead, construct, r1, r2, r3, r4]

/-- Move assignment between different objects, from a nonempty list: the old contents of `d` are destroyed first. -/
theorem moveAssign_ok {m : Mem α} {s d : Nat} {es D : Entries α} (hs : LInv m s es) (hd' : LInv m d D) (hsd : s ≠ d)
    (dj : Disj es D) (hne : es ≠ []) {f : Nat} (hf : D.length < f) :
    ∃ m', moveAssign f m d s = .ok m' ∧ LInv m' d es ∧ LInv m' s [] ∧ m.fresh ≤ m'.fresh ∧
      (∀ n ∈ addrs D, m'.cell (.node n) = none) ∧
      (∀ i, i ≠ d → i ≠ s → m'.head i = m.head i ∧ m'.tail i = m.tail i) ∧
      (∀ q, q ≠ .first d → q ≠ .last d → q ≠ .first s → q ≠ .last s → (∀ n ∈ addrs es, q ≠ .node n) →
        (∀ n ∈ addrs D, q ≠ .node n) → m'.cell q = m.cell q) := by
  obtain ⟨m0, z1, z2⟩ := clean_ok hd' hf
  obtain ⟨hs1, _⟩ := z2.other hs hsd dj
  have hfr := z2.fresh
  have hds : d ≠ s := Ne.symm hsd
  let ma : Mem α := setTail (setHead m0 d (m0.head s)) d ((setHead m0 d (m0.head s)).tail s)
  have sg : Seg ma (.first s) es (.last s) := seg_frame (m := m0) (fun e _ => by simp [ma, setTail, setHead]) hs1.seg
  have k1 : ma.head d = hd es .null := by rw [← hs1.head]; simp [ma, setTail, setHead]
  have k2 : ma.tail d = lst .null es := by rw [← hs1.tail]; simp [ma, setTail, setHead]
  have k3 : ma.cell (.first d) = some ⟨.null, .null, none⟩ := z2.inv.first
  have k4 : ma.cell (.last d) = some ⟨.null, .null, none⟩ := z2.inv.last
  obtain ⟨mb, u1, u2, u3, u4⟩ := updateLinks_ok hne sg hs.nodup hs1.lt hs1.len k1 k2 k3 k4
  let mc : Mem α := setTail (setHead mb s .null) s .null
  have c1 : mc.cell (.first s) = some ⟨.null, hd es .null, none⟩ := by
    show mb.cell _ = _; rw [u4 _ (by simpa using hsd) (by simp) (by simp)]; exact hs1.first
  have c2 : mc.cell (.last s) = some ⟨lst .null es, .null, none⟩ := by
    show mb.cell _ = _; rw [u4 _ (by simp) (by simpa using hsd) (by simp)]; exact hs1.last
  have hcl := cleanLinks_eq c1 c2
  refine ⟨store (store mc (.first s) ⟨.null, .null, none⟩) (.last s) ⟨.null, .null, none⟩, ?_, u2.mono (Nat.le_refl _) ?_ ?_ ?_ ?_ ?_, ?_, ?_, ?_, ?_, ?_⟩
  · have e : moveAssign f m d s = clean f m d >>= fun m => updateLinks (setTail (setHead m d (m.head s)) d ((setHead m d (m.head s)).tail s)) d >>=
      fun m => cleanLinks (setTail (setHead m s .null) s .null) s := rfl
    rw [e, z1, Res.ok_bind, u1, Res.ok_bind, hcl]
  · simp [mc, store, setTail, setHead, hds]
  · simp [mc, store, setTail, setHead, hds]
  · simp [mc, store, setTail, setHead, hds]
  · simp [mc, store, setTail, setHead, hds]
  · intro n _; simp [mc, store, setTail, setHead]
  · refine ⟨?_, ?_, ?_, ?_, trivial, by simp, by simp, by simp⟩ <;> simp [mc, store, setTail, setHead]
  · show _ ≤ mb.fresh; rw [u3.fresh]; exact hfr
  · intro n hn
    have h0 := z2.freed n hn (by simp)
    have hnn : n ∉ addrs es := fun h => dj n h hn
    have : (store (store mc (.first s) ⟨.null, .null, none⟩) (.last s) ⟨.null, .null, none⟩).cell (.node n) = mb.cell (.node n) := by
      simp [mc, store, setTail, setHead]
    rw [this, u4 _ (by simp) (by simp) (by intro k hk he; injection he with he; subst he; exact hnn hk)]
    exact h0
  · intro i i1 i2
    have := z2.heads i i1
    rw [← this.1, ← this.2]
    simp [mc, store, setTail, setHead, i2, u3.head, u3.tail, ma, i1]
  · intro r r1 r2 r3 r4 r5 r6
    have : (store (store mc (.first s) ⟨.null, .null, none⟩) (.last s) ⟨.null, .null, none⟩).cell r = mb.cell r := by
      simp [mc, store, setTail, setHead, r3, r4]
    rw [this, u4 r r1 r2 r5]
    exact z2.frame r r1 r2 r6 (by simp)

end Flame.LL
