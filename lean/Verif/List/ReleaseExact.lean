import Verif.List.ExactProps

/-!
# C62, exactly: after which call a list can still release its nodes
-/

namespace Flame
open LL ListSpec
variable {α : Type}

namespace ListSpec

/-- Specification: the calls after which destruction releases every node: those that leave a working list, and the two that leave only the way
forward intact, taking the only element from the front and erasing the last one. -/
def releasing (l : List α) : Op α → Prop
  | .popFront => 0 < l.length
  | .erase i => i < l.length
  | op => good l op

end ListSpec

namespace LL

/-- Destroying the list object `o` succeeds and no node is left. -/
def Releases (m : Mem α) (o : Nat) : Prop := ∀ f, m.fresh < f → ∃ m', clean f m o = .ok m' ∧ ∀ n, m'.cell (.node n) = none

theorem LInv.releases {m : Mem α} {o : Nat} {es : Entries α} (h : LInv m o es) (he : Exact m es) : Releases m o := by
  intro f hf
  obtain ⟨m', a, b⟩ := clean_ok h (Nat.lt_of_le_of_lt h.len hf)
  exact ⟨m', a, fun n => b.exact he n (by simp)⟩

/-- For destruction the way forward is enough. -/
theorem releases_forward {m : Mem α} {o : Nat} {es : Entries α} {p : Ptr} (s : Seg m p es (.last o)) (nd : (addrs es).Nodup) (he : Exact m es)
    (hh : m.head o = hd es (.last o)) (hlen : es.length ≤ m.fresh) {a b : Node α} (h1 : m.cell (.first o) = some a) (h2 : m.cell (.last o) = some b) :
    Releases m o := by
  intro f hf
  obtain ⟨m1, c1, _, c3, c4⟩ := cleanLoop_ok s nd f (by omega)
  have e1 : m1.cell (.first o) = some a := by rw [c4 _ (by simp)]; exact h1
  have e2 : m1.cell (.last o) = some b := by rw [c4 _ (by simp)]; exact h2
  simp only [clean, hh, c1, Res.ok_bind, cleanLinks, setHead, setTail, setNext, setPrev, store, e1, e2, reduceCtorEq, if_true, if_false]
  refine ⟨_, rfl, fun n => ?_⟩
  simp only [reduceCtorEq, if_false]
  by_cases hn : n ∈ addrs es
  · exact c3 n hn
  · rw [c4 _ (by intro k hk e; injection e with e; subst e; exact hn hk)]
    exact he n hn

theorem not_releases {m : Mem α} {o : Nat} (h : ∀ f, clean (f + 1) m o = .ub) : ¬ Releases m o := by
  intro hr
  obtain ⟨m', a, _⟩ := hr (m.fresh + 1) (by omega)
  rw [h] at a
  cases a

/-- Taking the only element from the front. -/
theorem popFront_last_releases {m : Mem α} {o n : Nat} {a : α} (h : LInv m o [(n, a)]) (he : Exact m [(n, a)]) :
    ∃ m', popFront m o = .ok m' ∧ Releases m' o := by
  have h1 := h.first; have h2 := h.last; have h3 := h.head; have h4 := h.tail
  obtain ⟨c, _⟩ := h.seg
  simp only [hd_cons, lst_cons, hd_nil, lst_nil] at h1 h2 h3 h4 c
  simp only [popFront, load, h3, c, Res.ok_bind, ne_eq, reduceCtorEq, not_false_eq_true, if_true, setHead, setNext, h1, store, free,
    updateHeadLinks, setPrev, h2, if_false]
  refine ⟨_, rfl, releases_forward (es := []) (p := .null) trivial (by simp) ?_ (by simp) (by simp) (by simp; rfl) (by simp; rfl)⟩
  intro k _
  by_cases hk : k = n
  · simp [hk]
  · have := he k (by simpa using hk)
    simp [hk, this]

/-- Erasing the last of several elements. -/
theorem erase_last_releases {m : Mem α} {o : Nat} {A : Entries α} {n1 n2 : Nat} {a1 a2 : α}
    (h : LInv m o (A ++ [(n1, a1)] ++ [(n2, a2)])) (he : Exact m (A ++ [(n1, a1)] ++ [(n2, a2)])) :
    ∃ m', erase m o (.node n2) = .ok m' ∧ Releases m' o := by
  have hh := head_not_in (n := n2) h (by simp) (by simp)
  have h1 := h.first; have h2 := h.last; have h3 := h.head; have h6 := h.seg; have h7 := h.nodup; have h8 := h.len
  simp only [seg_append, Seg, hd_cons, hd_nil, and_true, lst_snoc] at h6
  obtain ⟨⟨c0, c1⟩, c2⟩ := h6
  have h7' : (addrs A).Nodup ∧ n1 ∉ addrs A ∧ n2 ∉ addrs A ∧ n1 ≠ n2 := by
    simp only [addrs_append, addrs_cons, addrs_nil, List.append_assoc] at h7
    have a := List.nodup_append.mp h7
    have b := List.nodup_append.mp a.2.1
    exact ⟨a.1, fun hx => a.2.2 n1 hx n1 (by simp) rfl, fun hx => a.2.2 n2 hx n2 (by simp) rfl, b.2.2 n1 (by simp) n2 (by simp)⟩
  obtain ⟨d1, d2, d3, hn12⟩ := h7'
  simp only [lst_snoc] at h2
  simp only [erase, if_neg (Ne.symm hh), reduceCtorEq, if_false, load, c2, Res.ok_bind, setNext, c1, store, setPrev, h2, free,
    Ptr.node.injEq, Ne.symm hn12]
  refine ⟨_, rfl, releases_forward (es := A ++ [(n1, a1)]) (p := .first o) ?_ ?_ ?_ ?_ ?_ (by simp [h1]; rfl) (by simp; rfl)⟩
  · rw [seg_append]
    refine ⟨seg_frame ?_ (by simpa using c0), ?_⟩
    · intro x hx
      have x1 : x.1 ≠ n1 := fun e => d2 (e ▸ mem_addrs hx)
      have x2 : x.1 ≠ n2 := fun e => d3 (e ▸ mem_addrs hx)
      simp [x1, x2]
    · simp [Seg, hn12]
  · simp only [addrs_append, addrs_cons, addrs_nil]
    refine List.nodup_append.mpr ⟨d1, by simp, ?_⟩
    intro x hx y hy e
    simp only [List.mem_singleton] at hy
    subst hy; subst e
    exact d2 hx
  · intro k hk
    simp only [addrs_append, addrs_cons, addrs_nil, List.mem_append, List.mem_singleton, not_or] at hk
    by_cases hk2 : k = n2
    · simp [hk2]
    · have := he k (by simp [hk.1, hk.2, hk2])
      simp [hk.2, hk2, this]
  · show m.head o = _
    rw [h3]
    cases A <;> rfl
  · simp only [List.length_append, List.length_cons, List.length_nil] at h8 ⊢
    omega

end LL

/-- A good call keeps the nodes of the memory and of the list the same. -/
theorem C62_step_good {m : Mem α} {o : Nat} {es : Entries α} {l : List α} (h : LInv m o es) (he : Exact m es) (hnull : m.cell .null = none)
    (hl : es.map (·.2) = l) (op : Op α) (hg : good l op) :
    ∃ m' es', step o m op = .ok m' ∧ es'.map (·.2) = apply l op ∧ LInv m' o es' ∧ Exact m' es' ∧ m'.cell .null = none := by
  have hlen : es.length = l.length := by rw [← hl, List.length_map]
  by_cases hs : safe l op
  · obtain ⟨m', es', a, b, c⟩ := C14_step h hl op hs
    exact ⟨m', es', a, b, c.inv, c.exact he, by rw [c.frame .null (by simp) (by simp) (by simp) (by simp), hnull]⟩
  · cases op with
    | insertRange i xs =>
      have hg' : i ≤ l.length ∧ (0 < l.length ∨ xs = []) := hg
      have hs' : ¬ (i ≤ l.length ∧ 0 < l.length) := hs
      have hx : xs = [] := hg'.2.resolve_left (fun h0 => hs' ⟨hg'.1, h0⟩)
      have hi : i = 0 := by omega
      subst hx; subst hi
      exact ⟨m, es, rfl, by simpa [apply] using hl, h, he, hnull⟩
    | eraseRange i j =>
      have hg' : i ≤ j ∧ j ≤ l.length ∧ (i < l.length ∨ l = []) := hg
      have hs' : ¬ (i ≤ j ∧ j ≤ l.length ∧ i < l.length) := hs
      have hx : l = [] := hg'.2.2.resolve_left (fun h0 => hs' ⟨hg'.1, hg'.2.1, h0⟩)
      subst hx
      have hij : i = 0 ∧ j = 0 := by simp at hg'; omega
      obtain ⟨rfl, rfl⟩ := hij
      have hes : es = [] := List.length_eq_zero_iff.mp (by simpa using hlen)
      subst hes
      have hh := h.head
      simp only [hd_nil] at hh
      exact ⟨m, [], by simp [step, iterAt, eraseRange, hh, popFrontUntil], by simp [apply], h, he, hnull⟩
    | insert i x => exact absurd hg hs
    | popBack => exact absurd hg hs
    | popFront => exact absurd hg hs
    | erase i => exact absurd hg hs
    | pushBack x => exact absurd trivial hs
    | pushFront x => exact absurd trivial hs
    | clean => exact absurd trivial hs

theorem C62_hist_good {o : Nat} : ∀ (ops : List (Op α)) {m : Mem α} {es : Entries α} {l : List α}, LInv m o es → Exact m es → m.cell .null = none →
    es.map (·.2) = l → GoodHist l ops →
    ∃ m' es', runOps (step o) m ops = .ok m' ∧ es'.map (·.2) = ListSpec.run l ops ∧ LInv m' o es' ∧ Exact m' es' ∧ m'.cell .null = none := by
  intro ops
  induction ops with
  | nil => intro m es l h he hn hl _; exact ⟨m, es, rfl, hl, h, he, hn⟩
  | cons op ops ih =>
    intro m es l h he hn hl hg
    obtain ⟨m1, es1, a, b, c, d, e⟩ := C62_step_good h he hn hl op hg.1
    obtain ⟨m2, es2, p, q⟩ := ih c d e b hg.2
    exact ⟨m2, es2, by rw [runOps_cons_ok a]; exact p, q⟩

/-- One call on a list whose links are in order, then destruction. -/
theorem C62_step_exact {m : Mem α} {o : Nat} {es : Entries α} {l : List α} (h : LInv m o es) (he : Exact m es) (hnull : m.cell .null = none)
    (hl : es.map (·.2) = l) (op : Op α) (hv : valid l op) :
    (∃ m', step o m op = .ok m' ∧ Releases m' o) ↔ releasing l op := by
  have hlen : es.length = l.length := by rw [← hl, List.length_map]
  have hgood : good l op → ∃ m', step o m op = .ok m' ∧ Releases m' o := by
    intro hg
    obtain ⟨m', es', a, _, c, d, _⟩ := C62_step_good h he hnull hl op hg
    exact ⟨m', a, c.releases d⟩
  constructor
  · rintro ⟨m', hs, hw⟩
    cases op with
    | pushBack x => trivial
    | pushFront x => trivial
    | clean => trivial
    | popFront => exact hv
    | erase i => exact hv
    | insert i x =>
      refine ⟨hv, ?_⟩
      apply Classical.byContradiction
      intro h0
      have : es = [] := List.length_eq_zero_iff.mp (by omega)
      subst this
      simp only [step] at hs
      cases hi : iterAt m o i with
      | ub => simp [hi] at hs
      | loop => simp [hi] at hs
      | ok it =>
        simp only [hi, Res.ok_bind] at hs
        rw [(C14_insert_empty_violated h hnull it x [] (m.fresh + 1)).1] at hs
        cases hs
    | insertRange i xs =>
      refine ⟨hv, ?_⟩
      cases xs with
      | nil => exact .inr rfl
      | cons y ys =>
        refine .inl ?_
        apply Classical.byContradiction
        intro h0
        have : es = [] := List.length_eq_zero_iff.mp (by omega)
        subst this
        simp only [step] at hs
        cases hi : iterAt m o i with
        | ub => simp [hi] at hs
        | loop => simp [hi] at hs
        | ok it =>
          simp only [hi, Res.ok_bind] at hs
          rw [(C14_insert_empty_violated h hnull it y ys (m.fresh + 1)).2] at hs
          cases hs
    | popBack =>
      apply Classical.byContradiction
      intro h0
      have hv' : 0 < l.length := hv
      have h0' : ¬ 2 ≤ l.length := h0
      match es, h, hlen with
      | [], _, hlen => simp at hlen; omega
      | _ :: _ :: _, _, hlen => simp at hlen; omega
      | [(n, a)], h, _ =>
        obtain ⟨m2, b1, b2⟩ := C14_popBack_last_violated h
        simp only [step] at hs
        rw [b1] at hs
        injection hs with hs
        subst hs
        exact not_releases (fun f => (b2 f).2.2) hw
    | eraseRange i j =>
      refine ⟨hv.1, hv.2, ?_⟩
      apply Classical.byContradiction
      intro h0
      have hv' : i ≤ j ∧ j ≤ l.length := hv
      have hne : l ≠ [] := fun e => h0 (.inr e)
      have hi : i = l.length := by
        have : ¬ i < l.length := fun e => h0 (.inl e)
        omega
      have hj : j = l.length := by omega
      have hne' : es ≠ [] := by intro e; subst e; exact hne hl.symm
      have e := iterAt_ok (A := es) (B := []) (by simpa using h) (by simpa using hne')
      rw [hlen, ← hi] at e
      have e2 : iterAt m o j = .ok (.last o) := by rw [hj, ← hi]; simpa using e
      simp only [hd_nil] at e
      simp only [step, e, e2, Res.ok_bind, C14_erase_empty_range_diverges h hne'] at hs
      cases hs
  · intro hr
    by_cases hg : good l op
    · exact hgood hg
    · cases op with
      | popFront =>
        have hr' : 0 < l.length := hr
        have hg' : ¬ 2 ≤ l.length := hg
        match es, h, he, hlen with
        | [], _, _, hlen => simp at hlen; omega
        | _ :: _ :: _, _, _, hlen => simp at hlen; omega
        | [(n, a)], h, he, _ => exact popFront_last_releases h he
      | erase i =>
        have hr' : i < l.length := hr
        have hg' : ¬ i + 1 < l.length := hg
        rcases snoc_cases es with rfl | ⟨A, ⟨n2, a2⟩, rfl⟩
        · simp at hlen; omega
        · rcases snoc_cases A with rfl | ⟨A, ⟨n1, a1⟩, rfl⟩
          · have hi : i = 0 := by simp at hlen; omega
            subst hi
            obtain ⟨m2, b1, b2⟩ := popFront_last_releases h he
            have e := iterAt_ok (A := []) h (by simp)
            simp only [List.length_nil] at e
            have hh := h.head
            simp only [List.nil_append, hd_cons] at hh e
            exact ⟨m2, by simp only [step, e, Res.ok_bind, erase, hh, if_true, b1], b2⟩
          · obtain ⟨m2, b1, b2⟩ := erase_last_releases h he
            have e := iterAt_ok (A := A ++ [(n1, a1)]) (B := [(n2, a2)]) h (by simp)
            have hi : (A ++ [(n1, a1)]).length = i := by simp at hlen ⊢; omega
            rw [hi] at e
            simp only [hd_cons] at e
            exact ⟨m2, by simp only [step, e, Res.ok_bind, b1], b2⟩
      | insert i x => exact absurd hr hg
      | insertRange i xs => exact absurd hr hg
      | eraseRange i j => exact absurd hr hg
      | popBack => exact absurd hr hg
      | pushBack x => exact absurd trivial hg
      | pushFront x => exact absurd trivial hg
      | clean => exact absurd trivial hg

/-- **C62, exactly.**  After a history of good calls on a new list and one more call the caller may make: destruction releases every node
exactly if that call is a releasing one. -/
theorem C62_exact (o : Nat) (ops : List (Op α)) (hg : GoodHist [] ops) (op : Op α) (hv : valid (ListSpec.run [] ops) op) :
    (∃ m', runOps (step o) (construct emptyMem o) (ops ++ [op]) = .ok m' ∧ Releases m' o) ↔ releasing (ListSpec.run [] ops) op := by
  obtain ⟨m, es, a, b, c, d, e⟩ := C62_hist_good (o := o) ops (construct_ok emptyMem o) (LL.new_exact o)
    (by simp [construct, emptyMem, store, setHead, setTail]) rfl hg
  have b' : es.map (·.2) = ListSpec.run [] ops := b
  rw [← C62_step_exact c d e b' op hv, runOps_append a]
  simp only [runOps]
  constructor
  · rintro ⟨m', p, q⟩
    refine ⟨m', ?_, q⟩
    split at p
    · rename_i s' hs; rw [hs]; exact p
    · cases p
    · cases p
  · rintro ⟨m', p, q⟩
    exact ⟨m', by rw [p], q⟩

/-- A history of good calls, and after it a call that releases although the list no longer works, and one that does not release. -/
example : GoodHist [] [Op.pushBack 1, .pushFront 0, .popBack] ∧ releasing (ListSpec.run [] [Op.pushBack 1, .pushFront 0, .popBack]) Op.popFront ∧
    ¬ good (ListSpec.run [] [Op.pushBack 1, .pushFront 0, .popBack]) Op.popFront ∧
    ¬ releasing (ListSpec.run [] [Op.pushBack 1, .pushFront 0, .popBack]) Op.popBack := by
  simp [GoodHist, ListSpec.run, releasing, good, apply]

end Flame
