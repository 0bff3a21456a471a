import Verif.Circular.ElemModel
import Verif.Vector.ElemGeneric

/-! # C201: a `CircularArray` of Strings -/

namespace Flame.ElemRing
open Flame.CArr
open Flame.ElemVec (Cls strCls copyAll copyAll_ok readTexts readTexts_ok ab ab_rep)

variable {α : Type} [DecidableEq α] {z : α}

/-- The array holds the texts `ls`, oldest first, all in well formed strings. -/
def Holds (z : α) (a : CArr (Str α)) (N : Nat) (ls : List (List α)) : Prop :=
  a.buf.length = N + 1 ∧ ∃ ps : List (Str α × List α), CArr.Rep a (ps.map (·.1)) ∧ ps.map (·.2) = ls ∧ ∀ p ∈ ps, Str.Rep z p.1 p.2

/-- What a user reads: `for (auto &s : array)`, each string from begin to end. -/
def texts (a : CArr (Str α)) : Res (List (List α)) := do
  let ss ← CArr.toList a
  readTexts ss

/-- The same backwards. -/
def textsReverse (a : CArr (Str α)) : Res (List (List α)) := do
  let ss ← CArr.toListReverse a
  readTexts ss

/-- What a queue of at most `N` texts holds after a call. -/
def expect (N : Nat) (ls : List (List α)) : Act (List α) → List (List α)
  | .push t => if ls.length < N then ls ++ [t] else ls
  | .pushMove t => if ls.length < N then ls ++ [t] else ls
  | .emplace => if ls.length < N then ls ++ [[]] else ls
  | .pop => ls.tail
  | .clean => []

/-- A `clean` of an array that holds `ls` must find it empty. -/
def Act.Ok {E F : Type} (ls : List F) : Act E → Prop
  | .clean => ls = []
  | _ => True

/-- `clean` is only called on an empty queue. -/
def Fits (N : Nat) : List (List α) → List (Act (List α)) → Prop
  | _, [] => True
  | ls, o :: os => o.Ok ls ∧ Fits N (expect N ls o) os

/-- **C201, reading.**  An array of strings shows its texts, oldest first, and backwards. -/
theorem C201_read {a : CArr (Str α)} {N : Nat} {ls : List (List α)} (h : Holds z a N ls) :
    a.size = ls.length ∧ a.capacity = N ∧ ls.length ≤ N ∧ texts a = .ok ls ∧ textsReverse a = .ok ls.reverse := by
  obtain ⟨hN, ps, r, rfl, h3⟩ := h
  have hl := r.len
  simp only [List.length_map] at hl
  refine ⟨by rw [size_eq r]; simp, by simp [capacity, hN], by simp; omega, by rw [texts, toList_ok r, Res.ok_bind, readTexts_ok ps h3], ?_⟩
  rw [textsReverse, toListReverse_ok r, Res.ok_bind, ← List.map_reverse, ← List.map_reverse]
  exact readTexts_ok ps.reverse (fun p hp => h3 p (by simpa using hp))

/-- A new array. -/
theorem new_holds (z : α) (N : Nat) : Holds z (CArr.empty N) N [] := ⟨by simp [CArr.empty], [], rep_empty N, rfl, by simp⟩

theorem pushBack_holds {a : CArr (Str α)} {N : Nat} {ls : List (List α)} (h : Holds z a N ls) {s : Str α} {t : List α} (hs : Str.Rep z s t) :
    ∃ a', CArr.pushBack a s = .ok a' ∧ Holds z a' N (if ls.length < N then ls ++ [t] else ls) := by
  obtain ⟨hN, ps, r, rfl, h3⟩ := h
  obtain ⟨a', e, hb, _, r', _⟩ := pushBack_ok r s
  have hc : a.capacity = N := by simp [capacity, hN]
  rw [hc, List.length_map] at r'
  refine ⟨a', e, by omega, ?_⟩
  by_cases hl : ps.length < N
  · rw [if_pos hl] at r'
    refine ⟨ps ++ [(s, t)], by simpa using r', by simp [hl], ?_⟩
    intro p hp
    simp only [List.mem_append, List.mem_cons, List.not_mem_nil, or_false] at hp
    rcases hp with hp | rfl
    · exact h3 p hp
    · exact hs
  · rw [if_neg hl] at r'
    exact ⟨ps, r', by simp [hl], h3⟩

/-- Room is what the size test asks for. -/
theorem room_iff {a : CArr (Str α)} {N : Nat} {ls : List (List α)} (h : Holds z a N ls) : a.size ≠ a.capacity ↔ ls.length < N := by
  obtain ⟨h1, h2, h3, _⟩ := C201_read h
  rw [h1, h2]; omega

/-- **C201, pushing a copy.**  With room the text is appended; a full array stays as it is, whatever the argument. -/
theorem C201_push {a : CArr (Str α)} {N : Nat} {ls : List (List α)} (h : Holds z a N ls) (k : Nat) (s : Str α) :
    (∀ t, ls.length < N → Str.Rep z s t → ∃ a', push (strCls z k) a s = .ok a' ∧ Holds z a' N (ls ++ [t])) ∧
      (ls.length = N → push (strCls z k) a s = .ok a) := by
  refine ⟨fun t hl hs => ?_, fun hl => ?_⟩
  · obtain ⟨s', c, d, _⟩ := Str.copy_ok hs
    obtain ⟨a', e, g⟩ := pushBack_holds h (Or.inl d)
    rw [if_pos hl] at g
    refine ⟨a', ?_, g⟩
    rw [push, if_pos ((room_iff h).2 hl), show (strCls z k).copy s = .ok s' from c, Res.ok_bind, e]
  · rw [push, if_neg (by rw [room_iff h]; omega)]

/-- An array of capacity 3 holding two strings, the oldest not at the start of the storage. -/
def two : CArr (Str Nat) := ⟨[.raw, .live ab, .live Str.empty, .raw], 1, 3, 0⟩

theorem two_held : Holds 0 two 3 [[5, 6], []] :=
  ⟨rfl, [(ab, [5, 6]), (Str.empty, [])], ⟨by decide, by decide, by decide, by decide, by
    intro i a hi
    match i with
    | 0 => simp at hi; subst hi; rfl
    | 1 => simp at hi; subst hi; rfl
    | i + 2 => simp at hi⟩, rfl, by intro p hp; simp at hp; rcases hp with rfl | rfl; exact ab_rep; exact Or.inr ⟨rfl, rfl⟩⟩

example := C201_read two_held
example := (C201_push two_held 0 ab).1 [5, 6] (by decide) ab_rep

/-- **C201, handing a string over.**  With room the text is appended and the argument is left empty; a full array stays as it is *and so does
the argument*, so nothing is lost. -/
theorem C201_push_move {a : CArr (Str α)} {N : Nat} {ls : List (List α)} (h : Holds z a N ls) (k : Nat) (s : Str α) :
    (∀ t, ls.length < N → Str.Rep z s t →
      ∃ a', pushMove (strCls z k) a s = .ok (a', Str.empty) ∧ Holds z a' N (ls ++ [t]) ∧ Str.Rep z (Str.empty : Str α) []) ∧
      (ls.length = N → pushMove (strCls z k) a s = .ok (a, s)) := by
  refine ⟨fun t hl hs => ?_, fun hl => ?_⟩
  · obtain ⟨a', e, g⟩ := pushBack_holds h hs
    rw [if_pos hl] at g
    refine ⟨a', ?_, g, Or.inr ⟨rfl, rfl⟩⟩
    rw [pushMove, if_pos ((room_iff h).2 hl)]
    show (CArr.pushBack a s >>= fun a => Res.ok (a, Str.empty)) = _
    rw [e]; rfl
  · rw [pushMove, if_neg (by rw [room_iff h]; omega)]

example := (C201_push_move two_held 0 ab).1 [5, 6] (by decide) ab_rep

/-- **C201, one call.**  Every call but `clean` on an array that holds something acts on the texts as the bounded queue. -/
theorem C201_step_partial {a : CArr (Str α)} {N : Nat} {ls : List (List α)} (h : Holds z a N ls) (k : Nat)
    (o : Act (Str α × List α)) (hr : ∀ p ∈ o.args, Str.Rep z p.1 p.2) (hc : o.Ok ls) :
    ∃ a', act (strCls z k) a (o.map (·.1)) = .ok a' ∧ Holds z a' N (expect N ls (o.map (·.2))) := by
  have hle := (C201_read h).2.2.1
  cases o with
  | push p =>
    by_cases hl : ls.length < N
    · obtain ⟨a', e, g⟩ := (C201_push h k p.1).1 p.2 hl (hr p (by simp [Act.args]))
      exact ⟨a', e, by simpa [expect, Act.map, hl] using g⟩
    · exact ⟨a, (C201_push h k p.1).2 (by omega), by simpa [expect, Act.map, hl] using h⟩
  | pushMove p =>
    by_cases hl : ls.length < N
    · obtain ⟨a', e, g, _⟩ := (C201_push_move h k p.1).1 p.2 hl (hr p (by simp [Act.args]))
      refine ⟨a', ?_, by simpa [expect, Act.map, hl] using g⟩
      simp only [act, Act.map]
      rw [e]; rfl
    · refine ⟨a, ?_, by simpa [expect, Act.map, hl] using h⟩
      simp only [act, Act.map]
      rw [(C201_push_move h k p.1).2 (by omega)]; rfl
  | emplace =>
    by_cases hl : ls.length < N
    · obtain ⟨a', e, g, _⟩ := (C201_push_move h k Str.empty).1 [] hl (Or.inr ⟨rfl, rfl⟩)
      refine ⟨a', ?_, by simpa [expect, Act.map, hl] using g⟩
      show emplaceDefault _ _ = _
      rw [emplaceDefault, show (strCls z k).dflt = Str.empty from rfl, e]; rfl
    · refine ⟨a, ?_, by simpa [expect, Act.map, hl] using h⟩
      show emplaceDefault _ _ = _
      rw [emplaceDefault, (C201_push_move h k _).2 (by omega)]; rfl
  | pop =>
    obtain ⟨hN, ps, r, rfl, h3⟩ := h
    obtain ⟨a', e, hb, _, r', _⟩ := popFront_ok r false
    exact ⟨a', e, by omega, ps.tail, by simpa [List.map_tail] using r', by simp [expect, Act.map, List.map_tail],
      fun p hp => h3 p (List.mem_of_mem_tail hp)⟩
  | clean =>
    obtain ⟨hN, ps, r, h2, h3⟩ := h
    have hp : ps = [] := by
      have : ls = [] := hc
      rw [this] at h2; simpa using h2
    subst hp
    obtain ⟨e, r'⟩ := clean_ok r (triv := false) (Or.inr rfl)
    refine ⟨{ a with head := 0, tail := 0 }, ?_, hN, [], r', rfl, by simp⟩
    show clean _ a = _
    rw [clean, toList_ok r]
    exact e

example := C201_step_partial two_held 0 (.pushMove (ab, [5, 6])) (by simpa [Act.args] using ab_rep) trivial

/-- **C201, violated.**  `clean` of an array that holds any string is undefined. -/
theorem C201_clean_ub {a : CArr (Str α)} {N : Nat} {ls : List (List α)} (h : Holds z a N ls) (hne : ls ≠ []) (k : Nat) :
    act (strCls z k) a .clean = .ub := by
  obtain ⟨_, ps, r, rfl, h3⟩ := h
  obtain ⟨qs, c, _⟩ := copyAll_ok k ps h3
  show clean _ a = _
  rw [clean, toList_ok r, Res.ok_bind, c, Res.ok_bind]
  exact C09_clean_nontrivial_ub r (by intro e; apply hne; simp at e; simp [e])

example := C201_clean_ub two_held (by simp) 0

/-- **C201 (exact), histories.**  A history of calls on a new array of strings is defined exactly if `clean` is only ever called on an empty array,
and then the texts read are those of a queue of at most `N` texts.  (Full statement: every history is defined.) -/
theorem C201_history_exact (N k : Nat) (ops : List (Act (Str α × List α))) (hr : ∀ o ∈ ops, ∀ p ∈ o.args, Str.Rep z p.1 p.2) :
    (Fits N [] (ops.map (·.map (·.2))) → ∃ a', runOps (act (strCls z k)) (CArr.empty N) (ops.map (·.map (·.1))) = .ok a' ∧
      texts a' = .ok ((ops.map (·.map (·.2))).foldl (expect N) [])) ∧
    (¬ Fits N [] (ops.map (·.map (·.2))) → runOps (act (strCls z k)) (CArr.empty N) (ops.map (·.map (·.1))) = .ub) := by
  suffices key : ∀ (ops : List (Act (Str α × List α))) (a : CArr (Str α)) (ls : List (List α)), (∀ o ∈ ops, ∀ p ∈ o.args, Str.Rep z p.1 p.2) →
      Holds z a N ls →
      (Fits N ls (ops.map (·.map (·.2))) → ∃ a', runOps (act (strCls z k)) a (ops.map (·.map (·.1))) = .ok a' ∧
        texts a' = .ok ((ops.map (·.map (·.2))).foldl (expect N) ls)) ∧
      (¬ Fits N ls (ops.map (·.map (·.2))) → runOps (act (strCls z k)) a (ops.map (·.map (·.1))) = .ub) from
    key ops _ _ hr (new_holds z N)
  intro ops
  induction ops with
  | nil =>
    intro a ls _ h
    exact ⟨fun _ => ⟨a, rfl, (C201_read h).2.2.2.1⟩, fun hf => absurd trivial hf⟩
  | cons o os ih =>
    intro a ls hr h
    by_cases hc : o.Ok ls
    · obtain ⟨a1, e, g⟩ := C201_step_partial h k o (hr o (by simp)) hc
      obtain ⟨i1, i2⟩ := ih a1 _ (fun o' h' => hr o' (by simp [h'])) g
      rw [List.map_cons, List.map_cons, runOps_cons_ok e]
      refine ⟨fun hf => i1 hf.2, fun hf => i2 (fun hf' => hf ⟨?_, hf'⟩)⟩
      cases o <;> first | trivial | exact hc
    · cases o with
      | clean =>
        refine ⟨fun hf => absurd hf.1 hc, fun _ => ?_⟩
        have e := C201_clean_ub h hc k
        simp only [List.map_cons, Act.map, runOps]
        rw [e]
      | _ => exact absurd trivial hc

example := (C201_history_exact (z := 0) 2 0 [.push (ab, [5, 6]), .emplace, .pushMove (ab, [5, 6]), .pop, .pushMove (ab, [5, 6]), .pop, .pop, .clean]
  (by
    intro o ho p hp
    simp at ho
    rcases ho with rfl | rfl | rfl | rfl | rfl | rfl | rfl | rfl <;> simp [Act.args] at hp <;> subst hp <;> exact ab_rep)).1
  (by simp [Fits, Act.map, Act.Ok, expect])
example := (C201_history_exact (z := 0) 2 0 [.emplace, .clean] (by
    intro o ho p hp
    simp at ho
    rcases ho with rfl | rfl <;> simp [Act.args] at hp)).2
  (by simp [Fits, Act.map, Act.Ok, expect])

/-! ## Copying and moving the whole array -/

/-- **C201 (exact), copies.**  While the oldest string is at the start of the storage (or there is none and the ring is fresh) a copy holds the same
texts; in every other state of an array that holds something and nothing else, copying never delivers an array. -/
theorem C201_copy_exact {a : CArr (Str α)} {N : Nat} {ls : List (List α)} (h : Holds z a N ls) (k : Nat) :
    (a.head = 0 → ∃ a', copyCtor (strCls z k) a = .ok a' ∧ Holds z a' N ls ∧ a'.own = ls.length) ∧
    (a.head ≠ 0 → ls ≠ [] → (∀ ss, CArr.Rep a ss → CArr.NoStray a ss) → ∀ a', copyCtor (strCls z k) a ≠ .ok a') := by
  obtain ⟨hN, ps, r, rfl, h3⟩ := h
  refine ⟨fun h0 => ?_, fun h0 hne hst a' e => ?_⟩
  · obtain ⟨qs, c1, c2, c3⟩ := copyAll_ok k ps h3
    have hlen : qs.length = ps.length := by simpa using congrArg List.length c2
    have hl := r.len
    simp only [List.length_map] at hl
    obtain ⟨b', h1, h2, h4, _⟩ := constructList_ok (b := List.replicate a.buf.length (Cell.raw (α := Str α))) (xs := qs.map (·.1)) (k := 0)
      (by simp; omega)
    refine ⟨⟨b', 0, a.size, qs.length⟩, ?_, ⟨?_, qs, ?_, c2, c3⟩, by simp [hlen]⟩
    · rw [copyCtor, (C10_const_view_partial r h0).1, Res.ok_bind, c1, Res.ok_bind, place, h1]
      simp
    · simp [h2, hN]
    · have := rep_of_place (b := List.replicate a.buf.length .raw) (own := qs.length) (by simp; omega) h2 h4
      rw [size_eq r]
      simpa [hlen] using this
  · have hne' : ps.map (·.1) ≠ [] := by intro e; apply hne; simp at e; simp [e]
    obtain ⟨x, _⟩ := C10_const_view_violated r (hst _ r) hne' h0
    rw [copyCtor] at e
    obtain ⟨l', e1, _⟩ := Res.bind_eq_ok.1 e
    exact x l' e1

theorem two_fresh : Holds 0 (⟨[.live ab, .live Str.empty, .raw], 0, 2, 0⟩ : CArr (Str Nat)) 2 [[5, 6], []] :=
  ⟨rfl, [(ab, [5, 6]), (Str.empty, [])], ⟨by decide, by decide, by decide, by decide, by
    intro i a hi
    match i with
    | 0 => simp at hi; subst hi; rfl
    | 1 => simp at hi; subst hi; rfl
    | i + 2 => simp at hi⟩, rfl, by intro p hp; simp at hp; rcases hp with rfl | rfl; exact ab_rep; exact Or.inr ⟨rfl, rfl⟩⟩

example := (C201_copy_exact two_fresh 0).1 rfl
example := (C201_copy_exact two_held 0).2 (by decide) (by simp) (by
  intro ss r p hp hne
  have hl : ss.length = 2 := by rw [← size_eq r]; decide
  have a0 := hne 0 (by omega)
  have a1 := hne 1 (by omega)
  have hp' : p < 4 := hp
  match p with
  | 0 => rfl
  | 1 => exact absurd (by decide) a0
  | 2 => exact absurd (by decide) a1
  | 3 => rfl
  | p + 4 => omega)

theorem putWalk_length (ys : List α) : ∀ (b : Cells α) (p : Nat), (putWalk b p ys).length = b.length := by
  induction ys with
  | nil => intro b p; rfl
  | cons y ys ih => intro b p; rw [putWalk, ih]; simp

theorem putWalk_cells {n h : Nat} (hh : h < n) : ∀ (ys : List α) (b : Cells α) (k : Nat), b.length = n → k + ys.length ≤ n →
    (∀ i y, ys[i]? = some y → (putWalk b (slot n h k) ys)[slot n h (k + i)]? = some (.live y)) ∧
    (∀ j, j < k → (putWalk b (slot n h k) ys)[slot n h j]? = b[slot n h j]?) := by
  intro ys
  induction ys with
  | nil => intro b k _ _; exact ⟨by simp, fun _ _ => rfl⟩
  | cons y ys ih =>
    intro b k hb hk
    simp only [List.length_cons] at hk
    have hs : slot n h k < n := by unfold slot; split <;> omega
    have e : (CIter.inc b.length (slot n h k)).toNat = slot n h (k + 1) := by rw [hb]; exact slot_inc hh (by omega)
    obtain ⟨i1, i2⟩ := ih (b.set (slot n h k) (.live y)) (k + 1) (by simpa using hb) (by omega)
    rw [putWalk, e]
    refine ⟨fun i x hx => ?_, fun j hj => ?_⟩
    · cases i with
      | zero =>
        simp at hx; subst hx
        have := i2 k (by omega)
        simp only [Nat.add_zero]
        rw [this]
        simp [hb, hs]
      | succ i => rw [show k + (i + 1) = k + 1 + i by omega]; exact i1 i x (by simpa using hx)
    · rw [i2 j (by omega), List.getElem?_set_ne]
      intro he
      have := slot_inj hh (by omega) (by omega) he
      omega

/-- **C201, moving the array.**  The new array holds the texts, oldest first, wherever they were; the source *keeps its size*: as many empty strings as it
had strings (it does not become empty). -/
theorem C201_move_source {a : CArr (Str α)} {N : Nat} {ls : List (List α)} (h : Holds z a N ls) (k : Nat) :
    ∃ a' b, moveCtor (strCls z k) a = .ok (a', b) ∧ Holds z a' N ls ∧ a'.own = ls.length ∧ Holds z b N (List.replicate ls.length []) := by
  obtain ⟨hN, ps, r, rfl, h3⟩ := h
  have hl := r.len
  simp only [List.length_map] at hl
  obtain ⟨b', h1, h2, h4, _⟩ := constructList_ok (b := List.replicate a.buf.length (Cell.raw (α := Str α))) (xs := ps.map (·.1)) (k := 0)
    (by simp; omega)
  have em : (ps.map (·.1)).map (fun x => ((strCls z k).move x).1) = ps.map (·.1) := by simp [strCls, Str.moveCtor]
  have es : (ps.map (·.1)).map (fun x => ((strCls z k).move x).2) = List.replicate ps.length (Str.empty : Str α) := by
    rw [List.map_map]
    exact List.map_eq_replicate_iff.2 (fun _ _ => rfl)
  refine ⟨⟨b', 0, a.size, ps.length⟩, { a with buf := putWalk a.buf a.head (List.replicate ps.length Str.empty) }, ?_, ⟨by simp [h2, hN], ps, ?_, rfl, h3⟩,
    by simp, ⟨by simp [putWalk_length, hN], List.replicate ps.length (Str.empty, []), ?_, by simp, ?_⟩⟩
  · rw [moveCtor, toList_ok r, Res.ok_bind, em, es, place, h1]; simp
  · have := rep_of_place (b := List.replicate a.buf.length .raw) (own := ps.length) (by simp; omega) h2 h4
    rw [size_eq r]
    simpa using this
  · have e0 : slot a.buf.length a.head 0 = a.head := by unfold slot; simp [r.headLt]
    obtain ⟨w, _⟩ := putWalk_cells r.headLt (List.replicate ps.length (Str.empty : Str α)) a.buf 0 rfl (by simp; omega)
    rw [e0] at w
    have ht := r.tailEq
    simp only [List.length_map] at ht
    refine ⟨by simp only [putWalk_length]; exact r.pos, by simp only [putWalk_length]; exact r.headLt, by simp [putWalk_length]; omega, ?_, ?_⟩
    · simp [putWalk_length, ht]
    · intro i x hx
      simp only [List.map_replicate] at hx
      simp only [putWalk_length]
      have := w i x hx
      rwa [Nat.zero_add] at this
  · intro p hp
    rw [List.mem_replicate] at hp
    obtain ⟨_, rfl⟩ := hp
    exact Or.inr ⟨rfl, rfl⟩

example := C201_move_source two_held 0

/-- **C201, violated (destruction).**  Destroying an array of strings that was made by moving from any array that holds something, or by copying where
that works, destroys the strings twice: undefined. -/
theorem C201_made_destroyed_twice {a : CArr (Str α)} {N : Nat} {ls : List (List α)} (h : Holds z a N ls) (hne : ls ≠ []) (k : Nat) {a' : CArr (Str α)}
    (hm : (∃ b, moveCtor (strCls z k) a = .ok (a', b)) ∨ (a.head = 0 ∧ copyCtor (strCls z k) a = .ok a')) : a'.destruct false = .ub := by
  obtain ⟨hN, ps, r, rfl, h3⟩ := h
  have hl := r.len
  simp only [List.length_map] at hl
  suffices key : ∀ qs : List (Str α × List α), qs.length = ps.length → ∀ b : Cells (Str α),
      Cells.constructList (List.replicate a.buf.length .raw) 0 (qs.map (·.1)) = .ok b → CArr.destruct false ⟨b, 0, ps.length, ps.length⟩ = .ub by
    rcases hm with ⟨b, hm⟩ | ⟨h0, hm⟩
    · have em : (ps.map (·.1)).map (fun x => ((strCls z k).move x).1) = ps.map (·.1) := by simp [strCls, Str.moveCtor]
      rw [moveCtor, toList_ok r, Res.ok_bind, em] at hm
      obtain ⟨b1, e1, e2⟩ := Res.bind_eq_ok.1 hm
      cases e2
      have := key ps rfl b1 e1
      rw [size_eq r]
      simpa using this
    · obtain ⟨qs, c1, c2, _⟩ := copyAll_ok k ps h3
      have hlen : qs.length = ps.length := by simpa using congrArg List.length c2
      rw [copyCtor, (C10_const_view_partial r h0).1, Res.ok_bind, c1, Res.ok_bind] at hm
      obtain ⟨b1, e1, e2⟩ := Res.bind_eq_ok.1 hm
      cases e2
      have := key qs hlen b1 e1
      rw [size_eq r]
      simpa [hlen] using this
  intro qs hq b hb
  obtain ⟨b', h1, h2, h4, _⟩ := constructList_ok (b := List.replicate a.buf.length (Cell.raw (α := Str α))) (xs := qs.map (·.1)) (k := 0)
    (by simp; omega)
  rw [h1] at hb
  cases hb
  have := placed_destroyed_twice (n := a.buf.length) (l := qs.map (·.1)) (by simp; omega)
    (by intro e; apply hne; simp at e; subst e; simp at hq; simp [List.eq_nil_of_length_eq_zero hq.symm]) (by simpa using h2) h4
  simpa [hq] using this

example : ∃ a' b, moveCtor (strCls 0 0) two = .ok (a', b) ∧ a'.destruct false = .ub :=
  let ⟨a', b, h, _⟩ := C201_move_source two_held 0
  ⟨a', b, h, C201_made_destroyed_twice two_held (by simp) 0 (Or.inl ⟨b, h⟩)⟩

theorem act_tidy {E : Type} (c : Cls E) {a a' : CArr E} {ss : List E} (r : CArr.Rep a ss) (ns : CArr.NoStray a ss) (o : Act E)
    (h : act c a o = .ok a') : a'.own = a.own ∧ a'.buf.length = a.buf.length ∧ ∃ ss', CArr.Rep a' ss' ∧ CArr.NoStray a' ss' := by
  have one : ∀ x, CArr.pushBack a x = .ok a' →
      a'.own = a.own ∧ a'.buf.length = a.buf.length ∧ ∃ ss', CArr.Rep a' ss' ∧ CArr.NoStray a' ss' := by
    intro x hx
    obtain ⟨a1, e, hb, ho, r', n'⟩ := pushBack_ok r x
    rw [e] at hx
    cases hx
    exact ⟨ho, hb, _, r', n' ns⟩
  have mv : ∀ x y, pushMove c a x = .ok (a', y) →
      a'.own = a.own ∧ a'.buf.length = a.buf.length ∧ ∃ ss', CArr.Rep a' ss' ∧ CArr.NoStray a' ss' := by
    intro x y hx
    rw [pushMove] at hx
    split at hx
    · obtain ⟨a1, e1, e2⟩ := Res.bind_eq_ok.1 hx
      cases e2
      exact one _ e1
    · cases hx
      exact ⟨rfl, rfl, ss, r, ns⟩
  cases o with
  | push x =>
    simp only [act, push] at h
    split at h
    · obtain ⟨y, _, e2⟩ := Res.bind_eq_ok.1 h
      exact one y e2
    · cases h
      exact ⟨rfl, rfl, ss, r, ns⟩
  | pushMove x =>
    simp only [act] at h
    obtain ⟨⟨a1, y⟩, e1, e2⟩ := Res.bind_eq_ok.1 h
    cases e2
    exact mv x y e1
  | emplace =>
    simp only [act, emplaceDefault] at h
    obtain ⟨⟨a1, y⟩, e1, e2⟩ := Res.bind_eq_ok.1 h
    cases e2
    exact mv _ y e1
  | pop =>
    obtain ⟨a1, e, hb, ho, r', n'⟩ := popFront_ok r false
    simp only [act] at h
    rw [e] at h
    cases h
    exact ⟨ho, hb, _, r', n' ns⟩
  | clean =>
    simp only [act, clean] at h
    rw [toList_ok r, Res.ok_bind] at h
    obtain ⟨_, _, hcl⟩ := Res.bind_eq_ok.1 h
    cases ss with
    | nil =>
      obtain ⟨e, r'⟩ := clean_ok r (triv := false) (Or.inr rfl)
      rw [e] at hcl
      cases hcl
      exact ⟨rfl, rfl, [], r', fun p hp _ => ns p hp (by simp)⟩
    | cons x ss =>
      rw [show CArr.clean false a = .ub from C09_clean_nontrivial_ub r (by simp)] at hcl
      cases hcl

/-- **C201, destruction.**  Whatever the element type, and whatever happened to an array that was not made from another one: if the history was
defined, then destroying the array destroys every object in it exactly once, and leaves none behind. -/
theorem C201_destroyed_once {E : Type} (c : Cls E) (N : Nat) (ops : List (Act E)) {a : CArr E}
    (h : runOps (act c) (CArr.empty N) ops = .ok a) : a.destruct false = .ok (List.replicate (N + 1) .raw) := by
  suffices key : ∀ (ops : List (Act E)) (a0 : CArr E) (ss : List E), CArr.Rep a0 ss → CArr.NoStray a0 ss → a0.own = 0 → a0.buf.length = N + 1 →
      runOps (act c) a0 ops = .ok a → ∃ ss', CArr.Rep a ss' ∧ CArr.NoStray a ss' ∧ a.own = 0 ∧ a.buf.length = N + 1 by
    obtain ⟨ss, r, ns, ho, hb⟩ := key ops _ [] (rep_empty N) (noStray_empty N) rfl (by simp [empty]) h
    obtain ⟨b', d1, d2, d3, d4⟩ := destroyWalk_rep false r
    have : b' = List.replicate (N + 1) .raw := by
      apply List.ext_getElem?
      intro p
      by_cases hp : p < a.buf.length
      · rw [List.getElem?_replicate, if_pos (by omega)]
        by_cases hs : ∃ j, j < ss.length ∧ p = slot a.buf.length a.head j
        · obtain ⟨j, hj, rfl⟩ := hs
          exact d3 j hj
        · rw [d4 p hp (fun j hj e => hs ⟨j, hj, e⟩)]
          exact ns p hp (fun j hj e => hs ⟨j, hj, e⟩)
      · rw [List.getElem?_eq_none (by omega), List.getElem?_eq_none (by simp; omega)]
    unfold destruct
    rw [d1, ho, this]; rfl
  intro ops
  induction ops with
  | nil =>
    intro a0 ss r ns ho hb hr
    cases hr
    exact ⟨ss, r, ns, ho, hb⟩
  | cons o os ih =>
    intro a0 ss r ns ho hb hr
    cases e : act c a0 o with
    | ok a1 =>
      obtain ⟨i1, i2, ss', i3, i4⟩ := act_tidy c r ns o e
      rw [runOps_cons_ok e] at hr
      exact ih a1 ss' i3 i4 (by omega) (by omega) hr
    | ub => simp [runOps, e] at hr
    | loop => simp [runOps, e] at hr

example : ∃ a, runOps (act (strCls 0 0)) (CArr.empty 2) [.push ab, .pushMove ab, .emplace, .pop, .emplace] = .ok a ∧
    a.destruct false = .ok (List.replicate 3 .raw) :=
  let ⟨a, h, _⟩ := (C201_history_exact (z := 0) 2 0 [.push (ab, [5, 6]), .pushMove (ab, [5, 6]), .emplace, .pop, .emplace]
    (by
      intro o ho p hp
      simp at ho
      rcases ho with rfl | rfl | rfl | rfl | rfl <;> simp [Act.args] at hp <;> subst hp <;> exact ab_rep)).1
    (by simp [Fits, Act.map, Act.Ok])
  ⟨a, h, C201_destroyed_once _ 2 _ h⟩

end Flame.ElemRing
