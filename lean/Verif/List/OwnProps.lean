import Verif.List.Props

/-!
# Lists take elements and ranges of lists, their own included (C139)
-/

namespace Flame
open LL ListSpec
variable {α : Type}

namespace LL

theorem countNodes_ok {m : Mem α} {e : Ptr} : ∀ (M : Entries α) {p : Ptr} {f : Nat}, Seg m p M e →
    (∀ n ∈ addrs M, e ≠ .node n) → M.length < f → countNodes m e f (hd M e) = .ok M.length := by
  intro M
  induction M with
  | nil => intro p f _ _ hf; cases f with
    | zero => simp at hf
    | succ f => simp [countNodes]
  | cons a M ih =>
    intro p f s he hf
    cases f with
    | zero => simp at hf
    | succ f =>
      have h0 : Ptr.node a.1 ≠ e := fun h => he a.1 (by simp) h.symm
      have := ih (f := f) s.2 (fun n hn => he n (by simp [hn])) (by simpa using hf)
      simp [countNodes, h0, load, s.1, this]

/-- Walking nodes while building a chain out of fresh ones copies their values. -/
theorem chainNodes_ok {e : Ptr} : ∀ (M : Entries α) {m : Mem α} {k : Nat} {c} {p : Ptr} {f : Nat}, Seg m p M e →
    (∀ n ∈ addrs M, e ≠ .node n) → (∀ n ∈ addrs M, n < m.fresh) → k ∉ addrs M → k < m.fresh → m.cell (.node k) = some c →
    M.length < f → chainNodes e f m (.node k) (hd M e) = chainLoop m (.node k) (M.map (·.2)) := by
  intro M
  induction M with
  | nil =>
    intro m k c p f _ _ _ _ _ _ hf
    cases f with
    | zero => simp at hf
    | succ f => simp [chainNodes, chainLoop]
  | cons a M ih =>
    intro m k c p f s he hlt hk hkf hc hf
    cases f with
    | zero => simp at hf
    | succ f =>
      have h0 : Ptr.node a.1 ≠ e := fun h => he a.1 (by simp) h.symm
      have hak : a.1 ≠ k := fun h => hk (by simp [h])
      have haf : a.1 ≠ m.fresh := by have := hlt a.1 (by simp); omega
      have hkf' : k ≠ m.fresh := by omega
      have hkf'' : m.fresh ≠ k := by omega
      simp only [hd_cons, chainNodes, if_neg h0, deref, load, s.1, Res.ok_bind, List.map_cons, chainLoop, alloc, setNext,
        setPrev, store, hc, Ptr.node.injEq, hkf', hkf'', hak, haf, if_false, if_true]
      refine ih (p := .node a.1) ?_ (fun n hn => he n (by simp [hn])) ?_ ?_ (by simp) (c := ⟨.node k, .null, some a.2⟩) (by simp)
        (by simpa using hf)
      · refine seg_frame ?_ s.2
        intro x hx
        have h1 : x.1 ≠ k := fun h => hk (by simp only [addrs_cons, List.mem_cons]; exact Or.inr (h ▸ mem_addrs hx))
        have h2 : x.1 ≠ m.fresh := by have := hlt x.1 (by simp only [addrs_cons, List.mem_cons]; exact Or.inr (mem_addrs hx)); omega
        simp [h1, h2]
      · intro n hn
        have := hlt n (by simp [hn])
        show n < m.fresh + 1
        omega
      · intro hn
        have := hlt m.fresh (by simp [hn])
        omega

/-- Inserting a range of list nodes does what inserting their values from elsewhere would. -/
theorem insertNodes_eq {m : Mem α} {s : Nat} {A M B : Entries α} (h : LInv m s (A ++ (M ++ B))) (o : Nat) (it : Ptr) {f : Nat}
    (hf : M.length < f) :
    insertNodes f m o it (hd (M ++ B) (.last s)) (hd B (.last s)) = insertRange f m o it (M.map (·.2)) := by
  have sg := h.seg
  rw [seg_append, seg_append] at sg
  have sM := sg.2.1
  have nd := h.nodup
  have he : ∀ n ∈ addrs M, hd B (.last s) ≠ .node n := by
    intro n hn hh
    cases B with
    | nil => simp at hh
    | cons b B =>
      simp only [hd_cons, Ptr.node.injEq] at hh
      simp only [addrs_append, addrs_cons, List.nodup_append] at nd
      exact nd.2.1.2.2 n hn b.1 (by simp) hh.symm
  have hlt : ∀ n ∈ addrs M, n < m.fresh := fun n hn => h.lt n (by simp [hn])
  rw [hd_append]
  simp only [insertNodes, countNodes_ok M sM he hf, Res.ok_bind]
  cases M with
  | nil => simp [insertRange]
  | cons a M =>
    have haf : a.1 ≠ m.fresh := by have := hlt a.1 (by simp); omega
    have sM' := sM
    simp only [Seg] at sM'
    have key := chainNodes_ok M (m := alloc m a.2) (k := m.fresh) (c := ⟨.null, .null, some a.2⟩) (p := .node a.1) (f := f)
      (e := hd B (.last s))
      (by
        refine seg_frame ?_ sM'.2
        intro x hx
        have := hlt x.1 (by simp only [addrs_cons, List.mem_cons]; exact Or.inr (mem_addrs hx))
        have h2 : x.1 ≠ m.fresh := by omega
        simp [alloc, h2])
      (fun n hn => he n (by simp [hn]))
      (fun n hn => by have := hlt n (by simp [hn]); simp only [alloc]; omega)
      (fun hn => by have := hlt m.fresh (by simp [hn]); omega)
      (by simp [alloc]) (by simp [alloc]) (by simp at hf; omega)
    have hl : load (alloc m a.2) (.node a.1) = .ok ⟨lst (.first s) A, hd M (hd B (.last s)), some a.2⟩ := by
      simp [load, alloc, haf, sM'.1]
    have hdr : deref m (.node a.1) = .ok a.2 := by simp [deref, load, sM'.1]
    simp only [hd_cons, List.length_cons, hdr, hl, key, Res.ok_bind, Nat.succ_ne_zero, if_false, insertRange, List.map_cons]

end LL

/-! ## C139 -/

/-- `d.insert(begin() + i, s.begin() + b, s.begin() + e)` for any two list objects, or one and the same. -/
def LL.callInsert (m : Mem α) (d i s b e : Nat) : Res (Mem α) := do
  let it ← iterAt m d i
  let p ← iterAt m s b
  let q ← iterAt m s e
  insertNodes (m.fresh + 2) m d it p q

/-- Inserting any range of a nonempty list into any nonempty list, in particular into the list itself before, inside or behind
the range, inserts the values the range had when the call was made. -/
theorem C139_range_partial {m : Mem α} {d s : Nat} {es fs : Entries α} {l k : List α} (hd : LInv m d es) (hl : es.map (·.2) = l)
    (hs : LInv m s fs) (hk : fs.map (·.2) = k) {i b e : Nat} (hi : i ≤ l.length) (h0 : 0 < l.length) (hbe : b ≤ e)
    (hek : e ≤ k.length) (h1 : 0 < k.length) :
    ∃ m' es', LL.callInsert m d i s b e = .ok m' ∧ Post m m' d es es' ∧ LInv m' d es' ∧
      es'.map (·.2) = l.take i ++ ((k.drop b).take (e - b) ++ l.drop i) := by
  obtain ⟨m', es', a1, a2, a3⟩ := C14_step hd hl (.insertRange i ((k.drop b).take (e - b))) ⟨hi, h0⟩
  refine ⟨m', es', ?_, a3, a3.inv, a2⟩
  rw [← a1]
  obtain ⟨A, R, rfl, hA, mA, mR⟩ := split_at hk (i := b) (by omega)
  obtain ⟨M, B, rfl, hM, mM, mB⟩ := split_at mR (i := e - b) (by simp; omega)
  have hne : A ++ (M ++ B) ≠ [] := by
    intro hh; rw [hh] at hk; simp at hk; subst hk; simp at h1
  have i1 := iterAt_ok hs hne
  have hs' : LInv m s ((A ++ M) ++ B) := by simpa using hs
  have i2 := iterAt_ok hs' (by simpa using hne)
  rw [hA] at i1
  rw [show (A ++ M).length = e by simp only [List.length_append]; omega] at i2
  have hlen : (A ++ (M ++ B)).length ≤ m.fresh := hs.len
  simp only [LL.callInsert, step, i1, i2, Res.ok_bind]
  cases hit : iterAt m d i with
  | ok it =>
    simp only [Res.ok_bind]
    rw [insertNodes_eq hs d it (by simp only [List.length_append] at hlen; omega), mM]
  | ub => rfl
  | loop => rfl

example : ∃ m es, LInv (α := Nat) m 0 es ∧ es.map (·.2) = [4, 5, 6] := by
  obtain ⟨m, es, _, b, _, d⟩ := LL.hist (o := 0) ([.pushBack 4, .pushBack 5, .pushBack 6] : List (Op Nat)) (construct_ok emptyMem 0)
    (LL.new_exact 0) rfl (by decide)
  exact ⟨m, es, b, d⟩

example : (do
    let m ← runOps (step 0) (construct emptyMem 0) ([.pushBack 4, .pushBack 5, .pushBack 6] : List (Op Nat))
    let m ← LL.callInsert m 0 2 0 1 3
    toList 20 m 0) = .ok [4, 5, 5, 6, 6] := by decide +kernel

/-- The object of any node of any list may be pushed or inserted, also that of the list that grows. -/
theorem C139_element {m : Mem α} {d s : Nat} {es fs : Entries α} {l k : List α} (hd : LInv m d es) (hl : es.map (·.2) = l)
    (hs : LInv m s fs) (hk : fs.map (·.2) = k) {j : Nat} {x : α} (hj : k[j]? = some x) :
    ∃ p, iterAt m s j = .ok p ∧
      (∃ m' es', pushBackNode m d p = .ok m' ∧ Post m m' d es es' ∧ es'.map (·.2) = l ++ [x]) ∧
      (∃ m' es', pushFrontNode m d p = .ok m' ∧ Post m m' d es es' ∧ es'.map (·.2) = x :: l) ∧
      ∀ i, i ≤ l.length → 0 < l.length → ∃ it, iterAt m d i = .ok it ∧ ∃ m' es', insertNode (m.fresh + 2) m d it p = .ok m' ∧
        Post m m' d es es' ∧ es'.map (·.2) = l.take i ++ x :: l.drop i := by
  have hjl : j < k.length := (List.getElem?_eq_some_iff.mp hj).1
  obtain ⟨A, R, rfl, hA, mA, mR⟩ := split_at hk (i := j) (by omega)
  have hR : ∃ n B, R = (n, x) :: B := by
    cases R with
    | nil => have := congrArg List.length mR; simp at this; omega
    | cons a R =>
      refine ⟨a.1, R, ?_⟩
      have h1 : (k.drop j)[0]? = some x := by simpa using hj
      rw [← mR] at h1
      simp at h1
      rw [← h1]
  obtain ⟨n, B, rfl⟩ := hR
  have i1 := iterAt_ok hs (by simp)
  rw [hA] at i1
  have sg := hs.seg
  rw [seg_append] at sg
  have hdr : deref m (.node n) = .ok x := by simp [deref, load, sg.2.1]
  refine ⟨_, i1, ?_, ?_, ?_⟩
  · obtain ⟨m', es', a1, a2, a3⟩ := C14_step hd hl (.pushBack x) trivial
    exact ⟨m', es', by simpa [pushBackNode, hdr, step] using a1, a3, a2⟩
  · obtain ⟨m', es', a1, a2, a3⟩ := C14_step hd hl (.pushFront x) trivial
    exact ⟨m', es', by simpa [pushFrontNode, hdr, step] using a1, a3, a2⟩
  · intro i hi h0
    obtain ⟨m', es', a1, a2, a3⟩ := C14_step hd hl (.insert i x) ⟨hi, h0⟩
    cases hit : iterAt m d i with
    | ok it =>
      refine ⟨it, rfl, m', es', ?_, a3, a2⟩
      simpa [insertNode, hdr, step, hit] using a1
    | ub => simp [step, hit] at a1
    | loop => simp [step, hit] at a1

/-- The whole range of an empty list cannot even be counted: `begin()` is null and `end()` is not, so that inserting it anywhere
is undefined. -/
theorem C139_empty_violated {m : Mem α} {s : Nat} (hs : LInv m s []) (hn : m.cell .null = none) (d : Nat) (it : Ptr) (f : Nat) :
    insertNodes (f + 1) m d it (m.head s) (.last s) = .ub := by
  have := hs.head
  simp only [hd_nil] at this
  simp [insertNodes, countNodes, this, load, hn]

/-- **C139 (exact).** Inserting a range of a nonempty list gives the sequence with the range's values inserted exactly when the
target has elements or the range has none; a range that has elements cannot be inserted into an empty list. -/
theorem C139_exact {m : Mem α} {d s : Nat} {es fs : Entries α} {l k : List α} (hd : LInv m d es) (hl : es.map (·.2) = l)
    (hs : LInv m s fs) (hk : fs.map (·.2) = k) (hn : m.cell .null = none) {i b e : Nat} (hi : i ≤ l.length) (hbe : b ≤ e)
    (hek : e ≤ k.length) (h1 : 0 < k.length) :
    ((∃ m' es', LL.callInsert m d i s b e = .ok m' ∧ LInv m' d es' ∧
      es'.map (·.2) = l.take i ++ ((k.drop b).take (e - b) ++ l.drop i)) ↔ l ≠ [] ∨ b = e) ∧
    (¬ (l ≠ [] ∨ b = e) → LL.callInsert m d i s b e = .ub) := by
  by_cases hne : l = []
  · subst hne
    have hes : es = [] := by simpa using hl
    subst hes
    have hi0 : i = 0 := by simpa using hi
    subst hi0
    -- the call in terms of the values of the range
    obtain ⟨A, R, rfl, hA, mA, mR⟩ := split_at hk (i := b) (by omega)
    obtain ⟨M, B, rfl, hM, mM, mB⟩ := split_at mR (i := e - b) (by simp; omega)
    have hne : A ++ (M ++ B) ≠ [] := by
      intro hh; rw [hh] at hk; simp at hk; subst hk; simp at h1
    have i1 := iterAt_ok hs hne
    have hs' : LInv m s ((A ++ M) ++ B) := by simpa using hs
    have i2 := iterAt_ok hs' (by simpa using hne)
    rw [hA] at i1
    rw [show (A ++ M).length = e by simp only [List.length_append]; omega] at i2
    have hlen : (A ++ (M ++ B)).length ≤ m.fresh := hs.len
    have hcall : LL.callInsert m d 0 s b e = insertRange (m.fresh + 2) m d (m.head d) (M.map (·.2)) := by
      simp only [LL.callInsert, iterAt, i1, i2, Res.ok_bind]
      rw [insertNodes_eq hs d (m.head d) (by simp only [List.length_append] at hlen; omega)]
    by_cases hb : b = e
    · subst hb
      have hM0 : M = [] := by
        cases M with
        | nil => rfl
        | cons a M => simp at hM
      subst hM0
      have hok : LL.callInsert m d 0 s b b = .ok m := by rw [hcall]; simp [insertRange]
      exact ⟨⟨fun _ => .inr rfl, fun _ => ⟨m, [], hok, hd, by simp⟩⟩, fun h => absurd (.inr rfl) h⟩
    · have hub : LL.callInsert m d 0 s b e = .ub := by
        rw [hcall]
        cases M with
        | nil => simp at hM; omega
        | cons a M => exact (C14_insert_empty_violated hd hn (m.head d) a.2 (M.map (·.2)) (m.fresh + 1)).2
      refine ⟨⟨?_, ?_⟩, fun _ => hub⟩
      · rintro ⟨m', es', h, _⟩; rw [hub] at h; cases h
      · rintro (h | h)
        · exact absurd rfl h
        · exact absurd h hb
  · have h0 : 0 < l.length := by
      cases l with
      | nil => exact absurd rfl hne
      | cons a l => simp
    obtain ⟨m', es', a, _, c, d'⟩ := C139_range_partial hd hl hs hk hi h0 hbe hek h1
    exact ⟨⟨fun _ => .inl hne, fun _ => ⟨m', es', a, c, d'⟩⟩, fun h => absurd (.inl hne) h⟩

example : (do
    let m ← runOps (step 0) (construct (construct emptyMem 0) 1) ([.pushBack 4, .pushBack 5] : List (Op Nat))
    let m ← LL.callInsert m 1 0 0 0 1
    toList 9 m 1) = .ub := by decide +kernel

namespace Flame
open LL ListSpec
example : ∃ (m : Mem Nat) (es : Entries Nat) (p : Ptr), LInv m 0 es ∧ iterAt m 0 1 = .ok p ∧
    ∃ m' es', pushBackNode m 0 p = .ok m' ∧ Post m m' 0 es es' ∧ es'.map (·.2) = [4, 5, 6, 5] := by
  obtain ⟨m, es, _, b, _, d⟩ := LL.hist (o := 0) ([.pushBack 4, .pushBack 5, .pushBack 6] : List (Op Nat)) (construct_ok emptyMem 0)
    (LL.new_exact 0) rfl (by decide)
  obtain ⟨p, h1, h2, _⟩ := C139_element b d b d (j := 1) rfl
  exact ⟨m, es, p, b, h1, h2⟩
example := C139_empty_violated (construct_ok (emptyMem : Mem Nat) 0) rfl 1 (.last 1) 9
end Flame

end Flame
