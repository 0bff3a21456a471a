import Verif.List.Props

/-! # C168: iterators and references into a `List` through calls that change it -/

namespace Flame
namespace ListSpec
variable {α : Type}

/-- Where the element at position `i` of a list of `n` elements is after a call; `none` if the call removes it. -/
def place (n : Nat) : Op α → Nat → Option Nat
  | .pushBack _, i => some i
  | .pushFront _, i => some (i + 1)
  | .insert j _, i => some (if i < j then i else i + 1)
  | .insertRange j xs, i => some (if i < j then i else i + xs.length)
  | .popBack, i => if i + 1 < n then some i else none
  | .popFront, i => if i = 0 then none else some (i - 1)
  | .erase j, i => if i < j then some i else if i = j then none else some (i - 1)
  | .eraseRange a b, i => if i < a then some i else if i < b then none else some (i - (b - a))
  | .clean, _ => none

/-- The same through a history that starts with the list `l`. -/
def places (l : List α) : List (Op α) → Nat → Option Nat
  | [], i => some i
  | o :: os, i => (place l.length o i).bind (places (apply l o) os)

/-- `place` says what `apply` does. -/
theorem place_get (l : List α) (o : Op α) (h : valid l o) (i j : Nat) (hi : i < l.length) (hp : place l.length o i = some j) :
    (apply l o)[j]? = l[i]? := by
  cases o with
  | pushBack x => cases hp; simp [apply, List.getElem?_append, hi]
  | pushFront x => cases hp; simp [apply]
  | insert k x =>
    have hk : k ≤ l.length := h
    simp only [place, Option.some.injEq] at hp
    subst hp
    simp only [apply]
    by_cases c : i < k
    · rw [if_pos c, List.getElem?_append_left (by simp; omega), List.getElem?_take_of_lt c]
    · rw [if_neg c, List.getElem?_append_right (by simp; omega), List.length_take, Nat.min_eq_left hk,
        show i + 1 - k = (i - k) + 1 by omega, List.getElem?_cons_succ, List.getElem?_drop, show k + (i - k) = i by omega]
  | insertRange k xs =>
    have hk : k ≤ l.length := h
    simp only [place, Option.some.injEq] at hp
    subst hp
    simp only [apply]
    by_cases c : i < k
    · rw [if_pos c, List.getElem?_append_left (by simp; omega), List.getElem?_take_of_lt c]
    · rw [if_neg c, List.getElem?_append_right (by simp; omega), List.length_take, Nat.min_eq_left hk, List.getElem?_append_right (by omega),
        List.getElem?_drop, show k + (i + xs.length - k - xs.length) = i by omega]
  | popBack =>
    simp only [place] at hp
    split at hp
    · cases hp; simp [apply, List.getElem?_dropLast]; omega
    · cases hp
  | popFront =>
    simp only [place] at hp
    split at hp
    · cases hp
    · cases hp; simp only [apply]; rw [List.getElem?_tail]; congr 1; omega
  | erase k =>
    have hk : k < l.length := h
    simp only [place] at hp
    simp only [apply]
    split at hp
    · cases hp; rw [List.getElem?_append_left (by simp; omega), List.getElem?_take_of_lt (by assumption)]
    · split at hp
      · cases hp
      · cases hp
        rw [List.getElem?_append_right (by simp; omega), List.length_take, Nat.min_eq_left (by omega), List.getElem?_drop]
        congr 1; omega
  | eraseRange a b =>
    have hk : a ≤ b ∧ b ≤ l.length := h
    simp only [place] at hp
    simp only [apply]
    split at hp
    · cases hp; rw [List.getElem?_append_left (by simp; omega), List.getElem?_take_of_lt (by assumption)]
    · split at hp
      · cases hp
      · cases hp
        rw [List.getElem?_append_right (by simp; omega), List.length_take, Nat.min_eq_left (by omega), List.getElem?_drop]
        congr 1; omega
  | clean => cases hp

end ListSpec

namespace LL
open ListSpec
variable {α : Type}

/-- The iterator to the element at `i` before is the iterator to the element at `j` after, and gives the same object. -/
def Kept (m m' : Mem α) (o i j : Nat) : Prop :=
  ∃ p a, iterAt m o i = .ok p ∧ iterAt m' o j = .ok p ∧ deref m p = .ok a ∧ deref m' p = .ok a

/-- The iterator to the element at `i` dangles afterwards. -/
def Gone (m m' : Mem α) (o i : Nat) : Prop := ∃ p, iterAt m o i = .ok p ∧ deref m' p = .ub

/-- Iterators follow the elements. -/
def Follows (m m' : Mem α) (o i : Nat) : Option Nat → Prop
  | some j => Kept m m' o i j
  | none => Gone m m' o i

theorem iterAt_get {m : Mem α} {o : Nat} {es : Entries α} (h : LInv m o es) {i : Nat} {e : Nat × α} (he : es[i]? = some e) :
    iterAt m o i = .ok (.node e.1) ∧ deref m (.node e.1) = .ok e.2 := by
  obtain ⟨hi, hg⟩ := List.getElem?_eq_some_iff.mp he
  have hsplit : es = es.take i ++ e :: es.drop (i + 1) := by
    rw [← hg, List.getElem_cons_drop, List.take_append_drop]
  rw [hsplit] at h
  have hl : (es.take i).length = i := by simp; omega
  have k := iterAt_ok h (by simp)
  rw [hl] at k
  refine ⟨k, ?_⟩
  obtain ⟨c, hc, hv⟩ := seg_cell h.seg (e := e) (by simp)
  simp [deref, load, hc, hv]

/-- All the calls replace a part `C` of the list by new nodes `N`. -/
theorem splice_follows {m m' : Mem α} {o : Nat} {A C N B : Entries α} (h : LInv m o (A ++ (C ++ B))) (hp : Post m m' o (A ++ (C ++ B)) (A ++ (N ++ B)))
    (hN : ∀ n ∈ addrs N, m.fresh ≤ n) {i : Nat} (hi : i < (A ++ (C ++ B)).length) :
    Follows m m' o i (if i < A.length then some i else if i < A.length + C.length then none else some (i - C.length + N.length)) := by
  obtain ⟨e, he⟩ : ∃ e, (A ++ (C ++ B))[i]? = some e := ⟨_, List.getElem?_eq_getElem hi⟩
  have k := iterAt_get h he
  have kept : ∀ j, (A ++ (N ++ B))[j]? = some e → Kept m m' o i j := fun j hj => by
    have k' := iterAt_get hp.inv hj
    exact ⟨_, e.2, k.1, k'.1, k.2, k'.2⟩
  by_cases c1 : i < A.length
  · rw [if_pos c1]
    refine kept i ?_
    rw [List.getElem?_append_left c1] at he ⊢
    exact he
  · rw [if_neg c1]
    rw [List.getElem?_append_right (by omega)] at he
    by_cases c2 : i < A.length + C.length
    · rw [if_pos c2]
      rw [List.getElem?_append_left (by omega)] at he
      refine ⟨_, k.1, ?_⟩
      have hC : e ∈ C := List.mem_of_getElem? he
      have hin : e.1 ∈ addrs (A ++ (C ++ B)) := mem_addrs (by simp [hC])
      have hout : e.1 ∉ addrs (A ++ (N ++ B)) := by
        have nd := h.nodup
        simp only [addrs_append, List.nodup_append, List.mem_append] at nd ⊢
        have hc := mem_addrs hC
        rintro (q | q | q)
        · exact nd.2.2 _ q _ (.inl hc) rfl
        · exact absurd (hN _ q) (by have := h.lt _ hin; omega)
        · exact nd.2.1.2.2 _ hc _ q rfl
      have hcell := hp.freed _ hin hout
      simp [deref, load, hcell]
    · rw [if_neg c2]
      rw [List.getElem?_append_right (by omega)] at he
      refine kept _ ?_
      rw [List.getElem?_append_right (by omega), List.getElem?_append_right (by omega)]
      rw [← he]
      congr 1
      omega

/-- `splice_follows` with the place written as in the specification. -/
theorem splice_follows' {m m' : Mem α} {o : Nat} {A C N B es es' : Entries α} (h : LInv m o es) (hp : Post m m' o es es')
    (he : es = A ++ (C ++ B)) (he' : es' = A ++ (N ++ B)) (hN : ∀ n ∈ addrs N, m.fresh ≤ n) {i : Nat} (hi : i < es.length) {r : Option Nat}
    (hr : r = if i < A.length then some i else if i < A.length + C.length then none else some (i - C.length + N.length)) : Follows m m' o i r := by
  subst he he' hr
  exact splice_follows h hp hN hi

end LL

open LL ListSpec

/-- **C168, lists, one call.** For every call of the supported region, every iterator to an element that stays is the iterator to that element afterwards and
gives the same object, wherever the element now stands; an iterator to a removed element dangles. -/
theorem C168_list_step {α : Type} {m : Mem α} {o : Nat} {es : Entries α} {l : List α} (h : LInv m o es) (hl : es.map (·.2) = l) (op : Op α) (hs : safe l op) :
    ∃ m' es', step o m op = .ok m' ∧ LInv m' o es' ∧ es'.map (·.2) = apply l op ∧ ∀ i < l.length, Follows m m' o i (place l.length op i) := by
  have hlen : es.length = l.length := by rw [← hl, List.length_map]
  have hfuel : es.length < m.fresh + 2 := by have := h.len; omega
  have ne_of : 0 < l.length → es ≠ [] := by intro h0 he; subst he; simp at hlen; omega
  cases op with
  | pushBack x =>
    obtain ⟨m', a, b⟩ := pushBack_ok h x
    refine ⟨m', _, a, b.inv, by simp [apply, hl], fun i hi => ?_⟩
    refine splice_follows' (A := es) (C := []) (B := []) (N := [(m.fresh, x)]) h b (by simp) (by simp) (by simp) (by omega) ?_
    rw [if_pos (by omega)]; rfl
  | pushFront x =>
    obtain ⟨m', a, b⟩ := pushFront_ok h x
    refine ⟨m', _, a, b.inv, by simp [apply, hl], fun i hi => ?_⟩
    refine splice_follows' (A := []) (C := []) (B := es) (N := [(m.fresh, x)]) h b (by simp) (by simp) (by simp) (by omega) ?_
    rw [if_neg (by simp), if_neg (by simp)]; rfl
  | insert k x =>
    have hs' : k ≤ l.length ∧ 0 < l.length := hs
    obtain ⟨A, B, rfl, hA, mA, mB⟩ := split_at hl hs'.1
    obtain ⟨m', a, b⟩ := insert_ok h (ne_of hs'.2) x hfuel
    refine ⟨m', _, ?_, b.inv, ?_, fun i hi => ?_⟩
    · simp only [step, ← hA, iterAt_ok h (ne_of hs'.2), Res.ok_bind, a]
    · simp [apply, mA, mB]
    · refine splice_follows' (A := A) (C := []) (B := B) (N := [(m.fresh, x)]) h b (by simp) (by simp) (by simp) (by omega) ?_
      simp only [place, hA, List.length_nil, Nat.add_zero, Nat.sub_zero, List.length_singleton]
      by_cases c : i < k <;> simp [c]
  | insertRange k xs =>
    have hs' : k ≤ l.length ∧ 0 < l.length := hs
    obtain ⟨A, B, rfl, hA, mA, mB⟩ := split_at hl hs'.1
    obtain ⟨m', a, b⟩ := insertRange_ok h (ne_of hs'.2) xs hfuel
    refine ⟨m', _, ?_, b.inv, ?_, fun i hi => ?_⟩
    · simp only [step, ← hA, iterAt_ok h (ne_of hs'.2), Res.ok_bind, a]
    · simp only [apply, List.map_append, mA, mB, number_map]
    · refine splice_follows' (A := A) (C := []) (B := B) (N := number m.fresh xs) h b (by simp) rfl (fun n hn => (number_range hn).1) (by omega) ?_
      simp only [place, hA, List.length_nil, Nat.add_zero, Nat.sub_zero, number_length]
      by_cases c : i < k <;> simp [c]
  | popBack =>
    have hs' : 2 ≤ l.length := hs
    rcases snoc_cases es with rfl | ⟨A, ⟨n2, a2⟩, rfl⟩
    · simp at hlen; omega
    · rcases snoc_cases A with rfl | ⟨A, ⟨n1, a1⟩, rfl⟩
      · simp at hlen; omega
      · obtain ⟨m', a, b⟩ := popBack_ok h
        refine ⟨m', _, a, b.inv, ?_, fun i hi => ?_⟩
        · rw [← hl]; simp only [apply, List.map_append, List.map_cons, List.map_nil, List.dropLast_concat]
        · refine splice_follows' (A := A ++ [(n1, a1)]) (C := [(n2, a2)]) (B := []) (N := []) h b (by simp) (by simp) (by simp) (by omega) ?_
          simp only [List.length_append, List.length_singleton] at hlen
          simp only [place, List.length_append, List.length_singleton]
          by_cases c : i + 1 < l.length
          · rw [if_pos c, if_pos (by omega)]
          · rw [if_neg c, if_neg (by omega), if_pos (by omega)]
  | popFront =>
    have hs' : 2 ≤ l.length := hs
    match es, h, hl, hlen with
    | [], _, _, hlen => simp at hlen; omega
    | [_], _, _, hlen => simp at hlen; omega
    | (n1, a1) :: (n2, a2) :: B, h, hl, hlen =>
      obtain ⟨m', a, b⟩ := popFront_ok h
      refine ⟨m', _, a, b.inv, by rw [← hl]; rfl, fun i hi => ?_⟩
      refine splice_follows' (A := []) (C := [(n1, a1)]) (B := (n2, a2) :: B) (N := []) h b rfl rfl (by simp) (by rw [hlen]; exact hi) ?_
      simp only [place, List.length_nil, List.length_singleton]
      by_cases c : i = 0
      · simp [c]
      · rw [if_neg c, if_neg (by omega), if_neg (by omega)]; rfl
  | erase k =>
    have hs' : k + 1 < l.length := hs
    obtain ⟨A, B, rfl, hA, mA, mB⟩ := split_at hl (i := k) (by omega)
    have hne := ne_of (by omega)
    have hB : B.length = l.length - k := by
      have := congrArg List.length mB; simpa using this
    match B, hB, mB, h, hl, hlen, hfuel, hne with
    | [], hB, _, _, _, _, _, _ => simp at hB; omega
    | [_], hB, _, _, _, _, _, _ => simp at hB; omega
    | (n, a) :: (n2, a2) :: B, hB, mB, h, hl, hlen, hfuel, hne =>
      have hap : (A ++ (n2, a2) :: B).map (·.2) = apply l (.erase k) := by
        simp only [apply, List.map_append, mA]
        congr 1
        have : l.drop (k + 1) = (l.drop k).tail := by simp [List.tail_drop]
        rw [this, ← mB]; rfl
      have fol : ∀ m', Post m m' o (A ++ (n, a) :: (n2, a2) :: B) (A ++ (n2, a2) :: B) → ∀ i < l.length, Follows m m' o i (place l.length (Op.erase k : Op α) i) := by
        intro m' b i hi
        refine splice_follows' (A := A) (C := [(n, a)]) (B := (n2, a2) :: B) (N := []) h b rfl rfl (by simp) (by omega) ?_
        simp only [place, List.length_nil, List.length_singleton, hA]
        by_cases c : i < k
        · rw [if_pos c, if_pos c]
        · rw [if_neg c, if_neg c]
          by_cases c2 : i = k
          · rw [if_pos c2, if_pos (by omega)]
          · rw [if_neg c2, if_neg (by omega)]; rfl
      rcases snoc_cases A with rfl | ⟨A', ⟨n1, a1⟩, rfl⟩
      · simp only [List.nil_append] at *
        obtain ⟨m', a', b⟩ := popFront_ok h
        refine ⟨m', _, ?_, b.inv, hap, fol m' b⟩
        have hh := h.head
        have e := iterAt_ok (A := []) h (by simp)
        simp only [List.length_nil] at e hA
        subst hA
        simp only [step, e, Res.ok_bind, hd_cons, erase, hh, if_true]
        exact a'
      · obtain ⟨m', a', b⟩ := erase_mid h
        refine ⟨m', _, ?_, b.inv, hap, fol m' b⟩
        simp only [step, ← hA, iterAt_ok h hne, Res.ok_bind, hd_cons]
        exact a'
  | eraseRange i j =>
    have hs' : i ≤ j ∧ j ≤ l.length ∧ i < l.length := hs
    obtain ⟨A, B', rfl, hA, mA, mB⟩ := split_at hl (i := i) (by omega)
    have hne := ne_of (by omega)
    obtain ⟨C, B, rfl, hC, mC, mB2⟩ := split_at mB (i := j - i) (by simp; omega)
    have hCB : C ++ B ≠ [] := by
      intro he; rw [he] at mB; have := congrArg List.length mB; simp at this; omega
    obtain ⟨m', a, b⟩ := eraseRange_ok h hCB hfuel
    refine ⟨m', _, ?_, b.inv, ?_, fun k hk => ?_⟩
    · have e1 := iterAt_ok h hne
      have h' : LInv m o ((A ++ C) ++ B) := by simpa using h
      have e2 := iterAt_ok h' (by simpa using hne)
      have hj : (A ++ C).length = j := by simp only [List.length_append]; omega
      rw [hA] at e1; rw [hj] at e2
      simp only [step, e1, e2, Res.ok_bind, a]
    · simp only [apply, List.map_append, mA, mB2, List.drop_drop]
      congr 2; omega
    · refine splice_follows' (A := A) (C := C) (B := B) (N := []) h b rfl rfl (by simp) (by omega) ?_
      simp only [place, List.length_nil, hA, hC, Nat.add_zero]
      rw [show i + (j - i) = j by omega]
  | clean =>
    obtain ⟨m', a, b⟩ := clean_ok h hfuel
    refine ⟨m', _, a, b.inv, rfl, fun i hi => ?_⟩
    refine splice_follows' (A := []) (C := es) (B := []) (N := []) h b (by simp) rfl (by simp) (by omega) ?_
    rw [if_neg (by simp), if_pos (by simp; omega)]; rfl

/-- **C168, lists, histories.** Through every history of the supported region, an iterator to an element that is not removed stays the iterator to that
element. -/
theorem C168_list_history {α : Type} {o : Nat} : ∀ (ops : List (Op α)) {m : Mem α} {es : Entries α} {l : List α}, LInv m o es → es.map (·.2) = l →
    SafeHist l ops → ∃ m', runOps (step o) m ops = .ok m' ∧ ∀ i < l.length, ∀ j, places l ops i = some j → Kept m m' o i j := by
  intro ops
  induction ops with
  | nil =>
    intro m es l h hl _
    refine ⟨m, rfl, fun i hi j hj => ?_⟩
    cases hj
    obtain ⟨e, he⟩ : ∃ e, es[i]? = some e := ⟨_, List.getElem?_eq_getElem (by rw [← hl, List.length_map] at hi; exact hi)⟩
    have k := iterAt_get h he
    exact ⟨_, _, k.1, k.1, k.2, k.2⟩
  | cons op ops ih =>
    intro m es l h hl hs
    obtain ⟨m1, es1, h1, hi1, hl1, hf⟩ := C168_list_step h hl op hs.1
    obtain ⟨m2, h2, hk⟩ := ih hi1 hl1 hs.2
    refine ⟨m2, (runOps_cons_ok h1).trans h2, fun i hi j hj => ?_⟩
    simp only [places, Option.bind_eq_some_iff] at hj
    obtain ⟨k, hk1, hk2⟩ := hj
    have f1 := hf i hi
    rw [hk1] at f1
    obtain ⟨p, a, p1, p2, p3, p4⟩ := f1
    have hkl : k < (apply l op).length := by
      have hv : valid l op := by
        have := hs.1
        cases op <;> simp only [safe, valid] at this ⊢ <;> omega
      have := place_get l op hv i k hi hk1
      rw [List.getElem?_eq_getElem hi] at this
      exact (List.getElem?_eq_some_iff.mp this).1
    obtain ⟨q, b, q1, q2, q3, q4⟩ := hk k hkl j hk2
    rw [p2] at q1
    cases q1
    rw [p4] at q3
    cases q3
    exact ⟨p, a, p1, q2, p3, q4⟩

-- non-vacuity: the iterator to 7 survives insertions and removals around it
example : places [5, 7, 9] [.pushFront 1, .insertRange 1 [2, 3], .erase 0, .eraseRange 0 3, .popBack, .insert 0 4, .pushBack 6] 1 = some 1 ∧
    SafeHist [5, 7, 9] [.pushFront 1, .insertRange 1 [2, 3], .erase 0, .eraseRange 0 3, .insert 0 4, .pushBack 6] := by decide
example : place 3 (.erase 1 : Op Nat) 1 = none ∧ place 3 (.erase 1 : Op Nat) 2 = some 1 := by decide

namespace Flame
open LL ListSpec
example : ∃ (m : Mem Nat), ∃ m' es', LL.step 0 m (.erase 1) = .ok m' ∧ LInv m' 0 es' ∧ es'.map (·.2) = ([4, 6] : List Nat) ∧
    Follows m m' 0 1 none ∧ Follows m m' 0 2 (some 1) := by
  obtain ⟨m, es, _, b, _, d⟩ := LL.hist (o := 0) ([.pushBack 4, .pushBack 5, .pushBack 6] : List (Op Nat)) (construct_ok emptyMem 0)
    (LL.new_exact 0) rfl (by decide)
  obtain ⟨m', es', h1, h2, h3, h4⟩ := C168_list_step b d (.erase 1) (by decide)
  exact ⟨m, m', es', h1, h2, h3, h4 1 (by decide), h4 2 (by decide)⟩
end Flame

end Flame
