import Verif.List.Lemmas2

/-! # Range insert, copying and moving -/

namespace Flame.LL
variable {α : Type}

/-- Addresses `k, k+1, ...` for the values. -/
def number (k : Nat) : List α → Entries α
  | [] => []
  | x :: xs => (k, x) :: number (k + 1) xs

theorem number_map (k : Nat) (xs : List α) : (number k xs).map (·.2) = xs := by
  induction xs generalizing k with
  | nil => rfl
  | cons x xs ih => simp [number, ih]

theorem number_length (k : Nat) (xs : List α) : (number k xs).length = xs.length := by
  induction xs generalizing k with
  | nil => rfl
  | cons x xs ih => simp [number, ih]

theorem number_range {k n : Nat} {xs : List α} (h : n ∈ addrs (number k xs)) : k ≤ n ∧ n < k + xs.length := by
  induction xs generalizing k with
  | nil => simp [number] at h
  | cons x xs ih =>
    simp only [number, addrs_cons, List.mem_cons] at h
    simp only [List.length_cons]
    rcases h with h | h
    · omega
    · have := ih h; omega

theorem number_nodup (k : Nat) (xs : List α) : (addrs (number k xs)).Nodup := by
  induction xs generalizing k with
  | nil => simp [number]
  | cons x xs ih =>
    simp only [number, addrs_cons, List.nodup_cons]
    exact ⟨fun h => by have := number_range h; omega, ih _⟩

theorem chainLoop_ok : ∀ (xs : List α) {m : Mem α} {k : Nat} {a : α} {p : Ptr}, k < m.fresh →
    m.cell (.node k) = some ⟨p, .null, some a⟩ →
    ∃ m', chainLoop m (.node k) xs = .ok (m', lst (.node k) (number m.fresh xs)) ∧
      Seg m' p ((k, a) :: number m.fresh xs) .null ∧ m'.fresh = m.fresh + xs.length ∧ m'.head = m.head ∧ m'.tail = m.tail ∧
      (∀ q, q ≠ .node k → (∀ n ∈ addrs (number m.fresh xs), q ≠ .node n) → m'.cell q = m.cell q) := by
  intro xs
  induction xs with
  | nil =>
    intro m k a p hk hc
    exact ⟨m, rfl, ⟨hc, trivial⟩, rfl, rfl, rfl, fun _ _ _ => rfl⟩
  | cons x xs ih =>
    intro m k a p hk hc
    have hne : k ≠ m.fresh := by omega
    have hne' : m.fresh ≠ k := by omega
    simp only [chainLoop, alloc, setNext, setPrev, store, hc, Res.ok_bind, Ptr.node.injEq, hne, hne', if_false, if_true]
    let m2 : Mem α := { m with
      cell := fun q => if q = .node m.fresh then some ⟨.node k, .null, some x⟩ else
        if q = .node k then some ⟨p, .node m.fresh, some a⟩ else if q = .node m.fresh then some ⟨.null, .null, some x⟩
          else m.cell q,
      fresh := m.fresh + 1 }
    obtain ⟨m', h1, h2, h3, h4, h5, h6⟩ := ih (m := m2) (k := m.fresh) (a := x) (p := .node k) (by simp [m2]) (by simp [m2])
    refine ⟨m', h1, ⟨?_, h2⟩, by rw [h3]; simp [m2]; omega, h4, h5, ?_⟩
    · rw [h6]
      · simp [m2, hne, number]
      · simp [hne]
      · intro n hn hh; injection hh with hh
        have := number_range hn; simp [m2] at this; omega
    · intro q q1 q2
      have q3 := q2 m.fresh (by simp [number])
      rw [h6 q q3 (fun n hn => q2 n (by simp only [number, addrs_cons, List.mem_cons]; exact Or.inr hn))]
      simp [m2, q1, q3]

/-- The invariant only depends on the cells of the list. -/
theorem LInv.mono {m m' : Mem α} {o : Nat} {es : Entries α} (h : LInv m o es) (hf : m.fresh ≤ m'.fresh)
    (hh : m'.head o = m.head o) (ht : m'.tail o = m.tail o) (h1 : m'.cell (.first o) = m.cell (.first o))
    (h2 : m'.cell (.last o) = m.cell (.last o)) (hc : ∀ n ∈ addrs es, m'.cell (.node n) = m.cell (.node n)) :
    LInv m' o es :=
  ⟨h1.trans h.first, h2.trans h.last, hh.trans h.head, ht.trans h.tail, seg_frame (fun e he => hc _ (mem_addrs he)) h.seg,
    h.nodup, fun n hn => Nat.lt_of_lt_of_le (h.lt n hn) hf, Nat.le_trans h.len hf⟩

theorem setNext_some {m : Mem α} {p : Ptr} {c} (h : m.cell p = some c) (q : Ptr) :
    setNext m p q = .ok (store m p { c with next := q }) := by
  simp [setNext, load, h]

theorem setPrev_some {m : Mem α} {p : Ptr} {c} (h : m.cell p = some c) (q : Ptr) :
    setPrev m p q = .ok (store m p { c with prev := q }) := by
  simp [setPrev, load, h]

theorem insertRange_ok {m : Mem α} {o : Nat} {A B : Entries α} (h : LInv m o (A ++ B)) (hne : A ++ B ≠ []) (xs : List α)
    {f : Nat} (hf : (A ++ B).length < f) :
    ∃ m', insertRange f m o (hd B (.last o)) xs = .ok m' ∧ Post m m' o (A ++ B) (A ++ (number m.fresh xs ++ B)) := by
  cases xs with
  | nil => exact ⟨m, rfl, by simpa [number] using Post.refl h⟩
  | cons x xs =>
    -- build the detached chain
    obtain ⟨m1, c1, c2, c3, c4, c5, c6⟩ := chainLoop_ok xs (m := alloc m x) (k := m.fresh) (a := x) (p := .null)
      (by simp [alloc]) (by simp [alloc])
    have hfr : (alloc m x).fresh = m.fresh + 1 := rfl
    rw [hfr] at c1 c2 c3 c6
    have hCeq : (m.fresh, x) :: number (m.fresh + 1) xs = number m.fresh (x :: xs) := rfl
    rw [hCeq] at c2
    have hlstC : lst (.node m.fresh) (number (m.fresh + 1) xs) = lst .null (number m.fresh (x :: xs)) := rfl
    have hCne : number m.fresh (x :: xs) ≠ [] := by simp [number]
    have hhdC : ∀ q, hd (number m.fresh (x :: xs)) q = .node m.fresh := fun q => rfl
    have ndC := number_nodup m.fresh (x :: xs)
    have rgC : ∀ n ∈ addrs (number m.fresh (x :: xs)), m.fresh ≤ n ∧ n < m1.fresh := by
      intro n hn
      have := number_range hn
      simp only [List.length_cons] at this
      rw [c3]; omega
    have hlenC : (number m.fresh (x :: xs)).length = xs.length + 1 := by rw [number_length]; rfl
    generalize hC : number m.fresh (x :: xs) = C at *
    have same0 : ∀ q, (∀ n ∈ addrs C, q ≠ .node n) → m1.cell q = m.cell q := by
      intro q hq
      rw [← hC] at hq
      have hq0 := hq m.fresh (by simp [number])
      rw [c6 q hq0 (fun n hn => hq n (by simp only [number, addrs_cons, List.mem_cons]; exact Or.inr hn))]
      simp [alloc, hq0]
    have h1 : LInv m1 o (A ++ B) := by
      refine h.mono (by rw [c3]; omega) (by rw [c4]; rfl) (by rw [c5]; rfl) (same0 _ (by simp)) (same0 _ (by simp)) ?_
      intro n hn
      apply same0
      intro k hk hh; injection hh with hh
      have := h.lt n hn; have := rgC k hk; omega
    have hs := size_ok h1 hne hf
    have hl : (A ++ B).length ≠ 0 := fun he => hne (List.eq_nil_of_length_eq_zero he)
    have old : ∀ n ∈ addrs (A ++ B), n < m.fresh := h.lt
    have dis : ∀ n ∈ addrs (A ++ B), ∀ k ∈ addrs C, n ≠ k := by
      intro n hn k hk; have := old n hn; have := rgC k hk; omega
    -- common conclusion
    have fin : ∀ m', Seg m' (.first o) (A ++ (C ++ B)) (.last o) → m'.fresh = m1.fresh →
        m'.head o = hd (A ++ (C ++ B)) .null → m'.tail o = lst .null (A ++ (C ++ B)) →
        (∀ i, i ≠ o → m'.head i = m1.head i ∧ m'.tail i = m1.tail i) →
        m'.cell (.first o) = some ⟨.null, hd (A ++ (C ++ B)) .null, none⟩ →
        m'.cell (.last o) = some ⟨lst .null (A ++ (C ++ B)), .null, none⟩ →
        (∀ q, q ≠ .first o → q ≠ .last o → (∀ n ∈ addrs (A ++ B), q ≠ .node n) → (∀ n ∈ addrs C, q ≠ .node n) →
          m'.cell q = m1.cell q) →
        Post m m' o (A ++ B) (A ++ (C ++ B)) := by
      intro m' s1 s2 s3 s4 s5 s6 s7 s8
      have memR : ∀ n, n ∈ addrs (A ++ (C ++ B)) ↔ n ∈ addrs (A ++ B) ∨ n ∈ addrs C := by
        intro n
        simp only [addrs_append, List.mem_append]
        constructor
        · rintro (h | h | h)
          · exact Or.inl (Or.inl h)
          · exact Or.inr h
          · exact Or.inl (Or.inr h)
        · rintro ((h | h) | h)
          · exact Or.inl h
          · exact Or.inr (Or.inr h)
          · exact Or.inr (Or.inl h)
      refine ⟨⟨s6, s7, s3, s4, s1, ?_, ?_, ?_⟩, ?_, ?_, ?_, ?_, ?_⟩
      · have nd := h.nodup
        rw [addrs_append] at nd
        have := List.nodup_append.mp nd
        simp only [addrs_append, List.nodup_append]
        refine ⟨this.1, ⟨ndC, this.2.1, ?_⟩, ?_⟩
        · intro a ha b hb he; exact dis b (by simp [hb]) a ha he.symm
        · intro a ha b hb
          rcases List.mem_append.mp hb with hb | hb
          · exact dis a (by simp [ha]) b hb
          · exact this.2.2 a ha b hb
      · intro n hn
        rw [s2]
        rcases (memR n).mp hn with hn | hn
        · have := old n hn; rw [c3]; omega
        · exact (rgC n hn).2
      · have := h.len
        simp only [List.length_append] at this ⊢
        rw [s2, c3, hlenC]; omega
      · intro q q1 q2 q3 q4
        rw [s8 q q1 q2 q3 (fun n hn => q4 n ((memR n).mpr (Or.inr hn)))]
        exact same0 q (fun n hn => q4 n ((memR n).mpr (Or.inr hn)))
      · intro n hn hn'; exact absurd ((memR n).mpr (Or.inl hn)) hn'
      · intro i hi
        have := s5 i hi
        rw [c4, c5] at this; exact this
      · rw [s2, c3]; omega
      · intro n hn
        rcases (memR n).mp hn with hn | hn
        · exact Or.inl hn
        · right; rw [s2]; exact rgC n hn
    simp only [insertRange, splice, c1, Res.ok_bind, hs, if_neg hl]
    rw [hlstC]
    have hnd := h1.nodup
    rw [addrs_append] at hnd
    have ndA := (List.nodup_append.mp hnd).1
    have ndB := (List.nodup_append.mp hnd).2.1
    have dAB := (List.nodup_append.mp hnd).2.2
    obtain ⟨nt, hnt, hnte⟩ := lst_mem hCne .null
    have hnh : m.fresh ∈ addrs C := by rw [← hC]; simp [number]
    by_cases hA : A = []
    · subst hA
      simp only [List.nil_append] at *
      have hh : m1.head o = hd B (.last o) := by rw [h1.head, hd_eq hne]
      obtain ⟨nb, hnb, hnbe⟩ := hd_mem hne .null
      rw [if_pos hh.symm]
      obtain ⟨m2, u1, u2, u3, u4⟩ := setNext_lst c2 ndC hCne (m1.head o)
      have sB2 : Seg m2 (.first o) B (.last o) := seg_frame (fun e he => u3 _ (by
        rw [hnte]; intro hx; injection hx with hx; exact dis e.1 (mem_addrs he) nt hnt hx)) h1.seg
      obtain ⟨m3, v1, v2, v3, v4⟩ := setPrev_hd sB2 ndB hne (lst .null C)
      have sC3 : Seg m3 .null C (m1.head o) := seg_frame (fun e he => v3 _ (by
        rw [hnbe]; intro hx; injection hx with hx; exact dis nb hnb e.1 (mem_addrs he) hx.symm)) u2
      have hf3 : m3.cell (.first o) = some ⟨.null, hd B .null, none⟩ := by
        rw [v3 _ (by rw [hnbe]; simp), u3 _ (by rw [hnte]; simp)]; exact h1.first
      have hl3 : m3.cell (.last o) = some ⟨lst .null B, .null, none⟩ := by
        rw [v3 _ (by rw [hnbe]; simp), u3 _ (by rw [hnte]; simp)]; exact h1.last
      let m4 : Mem α := store (setHead m3 o (.node m.fresh)) (.first o) ⟨.null, .node m.fresh, none⟩
      have sC4 : Seg m4 .null C (m1.head o) := seg_frame (fun e he => by simp [m4, store, setHead]) sC3
      have sB4 : Seg m4 (lst .null C) B (.last o) := seg_frame (fun e he => by simp [m4, store, setHead]) v2
      obtain ⟨m5, w1, w2, w3, w4⟩ := setPrev_hd sC4 ndC hCne (.first o)
      have sB5 : Seg m5 (lst .null C) B (.last o) := seg_frame (fun e he => w3 _ (by
        rw [hhdC]; intro hx; injection hx with hx; exact dis e.1 (mem_addrs he) m.fresh hnh hx)) sB4
      refine ⟨m5, ?_, fin m5 ?_ ?_ ?_ ?_ ?_ ?_ ?_ ?_⟩
      · have v1' : setPrev m2 (m2.head o) (lst .null C) = .ok m3 := by
          rw [u4.head, h1.head]; exact v1
        have hx : setNext (setHead m3 o (.node m.fresh)) (.first o) ((setHead m3 o (.node m.fresh)).head o) = .ok m4 := by
          rw [setNext_some (m := setHead m3 o (.node m.fresh)) (c := ⟨.null, hd B .null, none⟩) hf3]; simp [m4, setHead]
        have hm4 : m4.head o = .node m.fresh := by simp [m4, store, setHead]
        rw [hhdC] at w1
        simp only [u1, Res.ok_bind, v1', updateHeadLinks, hx, hm4]
        exact w1
      · rw [seg_append]
        exact ⟨by rw [hh] at w2; exact w2, by rw [lst_eq hCne _ .null]; exact sB5⟩
      · rw [w4.fresh]; show m3.fresh = _; rw [v4.fresh, u4.fresh]
      · rw [w4.head, hd_append, hhdC]; simp [m4, store, setHead]
      · rw [w4.tail, lst_append]; show m3.tail o = _
        rw [v4.tail, u4.tail, h1.tail, lst_eq hne _ (lst .null C)]
      · intro i hi
        rw [w4.head, w4.tail]
        simp only [m4, store, setHead, hi, if_false, v4.head, u4.head, v4.tail, u4.tail]; exact ⟨trivial, trivial⟩
      · rw [w3 _ (by rw [hhdC]; simp), hd_append, hhdC]; simp [m4, store]
      · rw [w3 _ (by rw [hhdC]; simp), lst_append, lst_eq hne (lst .null C) .null]
        simp [m4, store, setHead, hl3]
      · intro q q1 q2 q3 q4
        rw [w3 q (by rw [hhdC]; exact q4 _ hnh)]
        have : m4.cell q = m3.cell q := by simp [m4, store, setHead, q1]
        rw [this, v3 q (by rw [hnbe]; exact q3 nb hnb), u3 q (by rw [hnte]; exact q4 nt hnt)]
    · obtain ⟨nA, hnA, hnAe⟩ := lst_mem hA .null
      by_cases hB : B = []
      · subst hB
        simp only [List.append_nil] at *
        have hh : Ptr.last o ≠ m1.head o := by
          obtain ⟨k, _, hk⟩ := hd_mem hA .null
          rw [h1.head, hk]; simp
        simp only [hd_nil]
        rw [if_neg hh, if_pos trivial]
        obtain ⟨m2, u1, u2, u3, u4⟩ := setPrev_hd c2 ndC hCne (m1.tail o)
        rw [hhdC] at u1
        have sA2 : Seg m2 (.first o) A (.last o) := seg_frame (fun e he => u3 _ (by
          rw [hhdC]; intro hx; injection hx with hx; exact dis e.1 (mem_addrs he) _ hnh hx)) h1.seg
        obtain ⟨m3, v1, v2, v3, v4⟩ := setNext_lst sA2 ndA hA (.node m.fresh)
        have sC3 : Seg m3 (m1.tail o) C .null := seg_frame (fun e he => v3 _ (by
          rw [hnAe]; intro hx; injection hx with hx; exact dis nA hnA e.1 (mem_addrs he) hx.symm)) u2
        have hf3 : m3.cell (.first o) = some ⟨.null, hd A .null, none⟩ := by
          rw [v3 _ (by rw [hnAe]; simp), u3 _ (by rw [hhdC]; simp)]; exact h1.first
        have hl3 : m3.cell (.last o) = some ⟨lst .null A, .null, none⟩ := by
          rw [v3 _ (by rw [hnAe]; simp), u3 _ (by rw [hhdC]; simp)]; exact h1.last
        let m4 : Mem α := store (setTail m3 o (lst .null C)) (.last o) ⟨lst .null C, .null, none⟩
        have sC4 : Seg m4 (m1.tail o) C .null := seg_frame (fun e he => by simp [m4, store, setTail]) sC3
        have sA4 : Seg m4 (.first o) A (.node m.fresh) := seg_frame (fun e he => by simp [m4, store, setTail]) v2
        obtain ⟨m5, w1, w2, w3, w4⟩ := setNext_lst sC4 ndC hCne (.last o)
        have sA5 : Seg m5 (.first o) A (.node m.fresh) := seg_frame (fun e he => w3 _ (by
          rw [hnte]; intro hx; injection hx with hx; exact dis e.1 (mem_addrs he) nt hnt hx)) sA4
        refine ⟨m5, ?_, fin m5 ?_ ?_ ?_ ?_ ?_ ?_ ?_ ?_⟩
        · have v1' : setNext m2 (m2.tail o) (.node m.fresh) = .ok m3 := by
            rw [u4.tail, h1.tail]; exact v1
          have hx : setPrev (setTail m3 o (lst .null C)) (.last o) ((setTail m3 o (lst .null C)).tail o) = .ok m4 := by
            rw [setPrev_some (m := setTail m3 o (lst .null C)) (c := ⟨lst .null A, .null, none⟩) hl3]; simp [m4, setTail]
          have hm4 : m4.tail o = lst .null C := by simp [m4, store, setTail]
          simp only [u1, Res.ok_bind, v1', updateTailLinks, hx, hm4]
          exact w1
        · rw [seg_append]
          refine ⟨by rw [hhdC]; exact sA5, ?_⟩
          rw [lst_eq hA _ .null, ← h1.tail]; exact w2
        · rw [w4.fresh]; show m3.fresh = _; rw [v4.fresh, u4.fresh]
        · rw [w4.head, hd_append]; show m3.head o = _
          rw [v4.head, u4.head, h1.head, hd_eq hA]
        · rw [w4.tail, lst_append, lst_eq hCne _ .null]; simp [m4, store, setTail]
        · intro i hi
          rw [w4.head, w4.tail]
          simp only [m4, store, setTail, hi, if_false, v4.head, u4.head, v4.tail, u4.tail]; exact ⟨trivial, trivial⟩
        · rw [w3 _ (by rw [hnte]; simp), hd_append, hd_eq hA _ .null]
          simp [m4, store, setTail, hf3]
        · rw [w3 _ (by rw [hnte]; simp), lst_append, lst_eq hCne (lst .null A) .null]; simp [m4, store]
        · intro q q1 q2 q3 q4
          rw [w3 q (by rw [hnte]; exact q4 _ hnt)]
          have : m4.cell q = m3.cell q := by simp [m4, store, setTail, q2]
          rw [this, v3 q (by rw [hnAe]; exact q3 nA hnA), u3 q (by rw [hhdC]; exact q4 _ hnh)]
      · -- in the middle
        obtain ⟨nb, hnb, hnbe⟩ := hd_mem hB .null
        have hnbe' : hd B (.last o) = .node nb := by rw [hd_eq hB _ .null]; exact hnbe
        have hh : hd B (.last o) ≠ m1.head o := by
          rw [hnbe']; exact Ne.symm (head_not_in h1 hA hnb)
        have disA : ∀ n ∈ addrs A, ∀ k ∈ addrs C, n ≠ k := fun n hn k hk => dis n (by simp [hn]) k hk
        have disB : ∀ n ∈ addrs B, ∀ k ∈ addrs C, n ≠ k := fun n hn k hk => dis n (by simp [hn]) k hk
        rw [if_neg hh, if_neg (by rw [hnbe']; simp)]
        have s := h1.seg
        rw [seg_append] at s
        obtain ⟨sA, sB⟩ := s
        obtain ⟨cb, hcb, hcbp⟩ := hd_load sB hB (.last o)
        have hlA : lst (.first o) A = lst .null A := lst_eq hA _ _
        obtain ⟨m2, u1, u2, u3, u4⟩ := setNext_lst sA ndA hA (.node m.fresh)
        have sC2 : Seg m2 .null C .null := seg_frame (fun e he => u3 _ (by
          rw [hnAe]; intro hx; injection hx with hx; exact disA nA hnA e.1 (mem_addrs he) hx.symm)) c2
        have sB2 : Seg m2 (lst (.first o) A) B (.last o) := seg_frame (fun e he => u3 _ (by
          rw [hnAe]; intro hx; injection hx with hx; exact dAB nA hnA e.1 (mem_addrs he) hx.symm)) sB
        obtain ⟨m3, v1, v2, v3, v4⟩ := setPrev_hd sC2 ndC hCne (lst .null A)
        have sA3 : Seg m3 (.first o) A (.node m.fresh) := seg_frame (fun e he => v3 _ (by
          rw [hhdC]; intro hx; injection hx with hx; exact disA e.1 (mem_addrs he) _ hnh hx)) u2
        have sB3 : Seg m3 (lst (.first o) A) B (.last o) := seg_frame (fun e he => v3 _ (by
          rw [hhdC]; intro hx; injection hx with hx; exact disB e.1 (mem_addrs he) _ hnh hx)) sB2
        obtain ⟨m4, w1, w2, w3, w4⟩ := setPrev_hd sB3 ndB hB (lst .null C)
        have sA4 : Seg m4 (.first o) A (.node m.fresh) := seg_frame (fun e he => w3 _ (by
          rw [hnbe]; intro hx; injection hx with hx; exact dAB e.1 (mem_addrs he) _ hnb hx)) sA3
        have sC4 : Seg m4 (lst .null A) C .null := seg_frame (fun e he => w3 _ (by
          rw [hnbe]; intro hx; injection hx with hx; exact disB nb hnb e.1 (mem_addrs he) hx.symm)) v2
        obtain ⟨m5, x1, x2, x3, x4⟩ := setNext_lst sC4 ndC hCne (hd B (.last o))
        have sA5 : Seg m5 (.first o) A (.node m.fresh) := seg_frame (fun e he => x3 _ (by
          rw [hnte]; intro hx; injection hx with hx; exact disA e.1 (mem_addrs he) _ hnt hx)) sA4
        have sB5 : Seg m5 (lst .null C) B (.last o) := seg_frame (fun e he => x3 _ (by
          rw [hnte]; intro hx; injection hx with hx; exact disB e.1 (mem_addrs he) _ hnt hx)) w2
        have same := u4.trans (v4.trans (w4.trans x4))
        have hcell : ∀ q, q ≠ .node nA → q ≠ .node m.fresh → q ≠ .node nb → q ≠ .node nt → m5.cell q = m1.cell q := by
          intro q q1 q2 q3 q4
          rw [x3 q (by rw [hnte]; exact q4), w3 q (by rw [hnbe]; exact q3), v3 q (by rw [hhdC]; exact q2),
            u3 q (by rw [hnAe]; exact q1)]
        refine ⟨m5, ?_, fin m5 ?_ ?_ ?_ ?_ ?_ ?_ ?_ ?_⟩
        · rw [hhdC] at v1
          have w1' : setPrev m3 (hd B (.last o)) (lst .null C) = .ok m4 := by rw [hd_eq hB (.last o) .null]; exact w1
          simp only [load, hcb, Res.ok_bind, hcbp, hlA, u1, v1, w1']
          exact x1
        · rw [seg_append, seg_append]
          refine ⟨by rw [hd_append, hhdC]; exact sA5, by rw [hlA]; exact x2, ?_⟩
          rw [lst_eq hCne _ .null]; exact sB5
        · exact same.fresh
        · rw [same.head, h1.head, hd_append, hd_append A (C ++ B), hd_eq hA]
        · rw [same.tail, h1.tail]; simp only [lst_append]; rw [lst_eq hB]
        · intro i hi; rw [same.head, same.tail]; exact ⟨rfl, rfl⟩
        · rw [hcell _ (by simp) (by simp) (by simp) (by simp), h1.first, hd_append, hd_append A (C ++ B), hd_eq hA]
        · rw [hcell _ (by simp) (by simp) (by simp) (by simp), h1.last]; simp only [lst_append]; rw [lst_eq hB]
        · intro q q1 q2 q3 q4
          exact hcell q (q3 nA (by simp [hnA])) (q4 _ hnh) (q3 nb (by simp [hnb])) (q4 nt hnt)

end Flame.LL
