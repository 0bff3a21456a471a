import Verif.Vector.Props
import Verif.Vector.ElemGeneric

/-!
# C202: a `Vector` of `Vector`s

Both assignment operators between vectors of one type are declared (Vector.hpp 132, 147) and nowhere defined, so a program that shifts vectors inside
a vector (`insert`, `erase`) does not link.  What is left is modelled here: appending, dropping, cleaning, reserving, copying, and using the inner vectors.

The specification keeps of the outer vector its `capacity()`, and of each inner one its `capacity()` and its elements.
-/

namespace Flame.NestSpec
variable {α : Type}

/-- The calls.  An argument vector is given by its capacity and its elements. -/
inductive Call (α : Type) where
  /-- `vv.pushBack(w)` -/
  | push (cap : Nat) (xs : List α)
  /-- `vv.pushBack(move(w))` -/
  | give (cap : Nat) (xs : List α)
  /-- `vv.pushBack(vv[i])` -/
  | pushOwn (i : Nat)
  /-- `vv.emplaceBack()` -/
  | emplace
  /-- `vv.popBack()` -/
  | pop
  /-- `vv.clean()` -/
  | clean
  /-- `vv.reserve(n)` -/
  | reserve (n : Nat)
  /-- go on with a copy of `vv` -/
  | copySelf
  /-- `vv[i].pushBack(x)` -/
  | append (i : Nat) (x : α)
  /-- `vv[i].popBack()` -/
  | drop (i : Nat)
  /-- `vv[i].clean()` -/
  | wipe (i : Nat)
  deriving Repr

/-- How a history ends. -/
inductive End (α : Type) where
  | back (cap : Nat) (inner : List (Nat × List α))
  | undefined
  | never
  deriving Repr, DecidableEq

/-- What a caller must respect: no vector holds more than its capacity, indices are below the size. -/
def valid (ps : List (Nat × List α)) : Call α → Prop
  | .push c xs | .give c xs => xs.length ≤ c
  | .pushOwn i | .append i _ | .drop i | .wipe i => i < ps.length
  | _ => True

instance (ps : List (Nat × List α)) (o : Call α) : Decidable (valid ps o) := by cases o <;> unfold valid <;> infer_instance

/-- The capacity after adding one to `n` elements; none if that never comes to an end. -/
def room (cap n : Nat) : Option Nat :=
  if n < cap then some cap else if cap = 0 then some 8 else if cap = 1 then none else some (cap * 3 / 2)

/-- Adding an inner vector. -/
def add (cap : Nat) (ps : List (Nat × List α)) (p : Nat × List α) : End α :=
  match room cap ps.length with
  | some cap' => .back cap' (ps ++ [p])
  | none => .never

/-- The outcome of one call. -/
def call (cap : Nat) (ps : List (Nat × List α)) : Call α → End α
  | .push _ xs => add cap ps (xs.length, xs)
  | .give c xs => add cap ps (c, xs)
  | .pushOwn i =>
    if ps.length < cap then (match ps[i]? with
      | some p => .back cap (ps ++ [(p.2.length, p.2)])
      | none => .undefined)
    else if cap = 1 then .never else .undefined
  | .emplace => add cap ps (0, [])
  | .pop => .back cap ps.dropLast
  | .clean => .back cap []
  | .reserve n => .back (max cap n) ps
  | .copySelf => .back ps.length (ps.map fun p => (p.2.length, p.2))
  | .append i x => match ps[i]? with
    | some p => (match room p.1 p.2.length with
      | some c => .back cap (ps.set i (c, p.2 ++ [x]))
      | none => .never)
    | none => .undefined
  | .drop i => match ps[i]? with
    | some p => .back cap (ps.set i (p.1, p.2.dropLast))
    | none => .undefined
  | .wipe i => match ps[i]? with
    | some p => .back cap (ps.set i (p.1, []))
    | none => .undefined

/-- The outcome of a history. -/
def hist (cap : Nat) (ps : List (Nat × List α)) : List (Call α) → End α
  | [] => .back cap ps
  | o :: os => match call cap ps o with
    | .back cap' ps' => hist cap' ps' os
    | e => e

/-- The caller respects the rules as long as the history goes on. -/
def ValidHist (cap : Nat) (ps : List (Nat × List α)) : List (Call α) → Prop
  | [] => True
  | o :: os => valid ps o ∧ match call cap ps o with
    | .back cap' ps' => ValidHist cap' ps' os
    | _ => True

instance decValidHist : (cap : Nat) → (ps : List (Nat × List α)) → (os : List (Call α)) → Decidable (ValidHist cap ps os)
  | _, _, [] => isTrue trivial
  | cap, ps, o :: os => by
    unfold ValidHist
    have : Decidable (match call cap ps o with | .back cap' ps' => ValidHist cap' ps' os | _ => True) := by
      cases call cap ps o with
      | back cap' ps' => exact decValidHist cap' ps' os
      | undefined => exact isTrue trivial
      | never => exact isTrue trivial
    infer_instance

end Flame.NestSpec

namespace Flame.Nested
open Flame ElemVec NestSpec
variable {α : Type} {triv : Bool} {can : Nat → Bool}

/-- `Vector` as element class: Vector.hpp 389-394 (default), 407-416 (copy), 430-437 (move).  The assignment operators (132, 147) have no definition, so
nothing that calls them is modelled here (`ub` is a placeholder no definition below reaches). -/
def vecCls : Cls (Vec α) where
  dflt := Vec.empty
  copy := Vec.copy
  move := Vec.moveCtor
  assign := fun _ _ => .ub
  massign := fun _ _ => .ub

/-- A vector with capacity `c` that holds `xs`. -/
def vecOf (c : Nat) (xs : List α) : Vec α := ⟨xs.map .live ++ List.replicate (c - xs.length) .raw, c, xs.length⟩

/-- Vector.hpp 725-736: `emplaceBack()`, which constructs `e`. -/
def emplaceBack {E : Type} (can : Nat → Bool) : Nat → EVec E → E → Res (EVec E)
  | 0, _, _ => .loop
  | f + 1, v, e =>
    if v.size ≠ v.cap then do
      let b ← put v.mem v.size e
      .ok ⟨b, v.cap, v.size + 1⟩
    else emplaceBack can f (reserve can v (nextCap v)) e

/-- Vector.hpp 698-711 with `object` referring to element `i` of the same vector: after a reallocation the reference dangles. -/
def pushBackOwn {E : Type} (c : Cls E) (can : Nat → Bool) (f : Nat) (v : EVec E) (i : Nat) : Res (EVec E) :=
  if v.size ≠ v.cap then do
    let x ← obj v.mem i
    pushBack c can (f + 1) v x
  else if v.cap < nextCap v ∧ can (nextCap v) then .ub
  else .loop

/-- Vector.hpp 510-524: a call `g` on the object `vv[i]` refers to. -/
def atIndex {E : Type} (g : E → Res E) (v : EVec E) (i : Nat) : Res (EVec E) := do
  let e ← obj v.mem i
  let e ← g e
  let b ← put v.mem i e
  .ok ⟨b, v.cap, v.size⟩

/-- One call, as the code makes it. -/
def step (triv : Bool) (can : Nat → Bool) (f : Nat) (v : EVec (Vec α)) : Call α → Res (EVec (Vec α))
  | .push c xs => pushBack vecCls can f v (vecOf c xs)
  | .give c xs => do
    let r ← pushBackMove vecCls can f v (vecOf c xs)
    .ok r.1
  | .pushOwn i => pushBackOwn vecCls can f v i
  | .emplace => emplaceBack can f v vecCls.dflt
  | .pop => popBack v
  | .clean => clean v
  | .reserve n => .ok (reserve can v n)
  | .copySelf => copyCtor vecCls v
  | .append i x => atIndex (fun w => w.pushBack can f x) v i
  | .drop i => atIndex (Vec.popBack triv) v i
  | .wipe i => atIndex (Vec.clean triv) v i

/-- A history. -/
def run (triv : Bool) (can : Nat → Bool) (f : Nat) (v : EVec (Vec α)) : List (Call α) → Res (EVec (Vec α))
  | [] => .ok v
  | o :: os => do
    let v ← step triv can f v o
    run triv can f v os

/-- Reading the inner vectors one after the other: capacity and elements. -/
def readAll : List (Vec α) → Res (List (Nat × List α))
  | [] => .ok []
  | w :: ws => do
    let l ← w.toList
    let r ← readAll ws
    .ok ((w.cap, l) :: r)

/-- What a program can read of a vector of vectors. -/
def look (v : EVec (Vec α)) : Res (List (Nat × List α)) := do
  let ws ← elems v.mem 0 v.size
  readAll ws

/-- The code ends as the specification says. -/
def Seen (r : Res (EVec (Vec α))) : End α → Prop
  | .back c ps => ∃ v, r = .ok v ∧ v.cap = c ∧ v.size = ps.length ∧ look v = .ok ps
  | .undefined => r = .ub
  | .never => r = .loop

/-- The objects `v` holds, each a well formed vector, are `ps`. -/
def Rep (v : EVec (Vec α)) (cap : Nat) (ps : List (Nat × List α)) : Prop :=
  v.cap = cap ∧ ∃ qs : List (Vec α × List α), Has v (qs.map (·.1)) ∧ ps = qs.map (fun q => (q.1.cap, q.2)) ∧ ∀ q ∈ qs, Vec.Rep q.1 q.2

def Leaves (r : Res (EVec (Vec α))) : End α → Prop
  | .back c ps => ∃ v, r = .ok v ∧ Rep v c ps
  | .undefined => r = .ub
  | .never => r = .loop

theorem readAll_ok : ∀ qs : List (Vec α × List α), (∀ q ∈ qs, Vec.Rep q.1 q.2) → readAll (qs.map (·.1)) = .ok (qs.map fun q => (q.1.cap, q.2)) := by
  intro qs
  induction qs with
  | nil => intro _; rfl
  | cons q qs ih =>
    intro h
    simp only [List.map_cons, readAll]
    rw [(rep_observe (h q (by simp))).1, Res.ok_bind, ih (fun p hp => h p (by simp [hp]))]; rfl

theorem Leaves.seen {r : Res (EVec (Vec α))} {e : End α} (h : Leaves r e) : Seen r e := by
  cases e with
  | back c ps =>
    obtain ⟨v, a, b, qs, h1, h2, h3⟩ := h
    refine ⟨v, a, b, ?_, ?_⟩
    · rw [h1.choose_spec.2.2, h2]; simp
    · rw [look, h1.elems, Res.ok_bind, readAll_ok qs h3, h2]
  | undefined => exact h
  | never => exact h

theorem vecOf_rep {c : Nat} {xs : List α} (h : xs.length ≤ c) : Vec.Rep (vecOf c xs) xs :=
  ⟨by simp [vecOf]; omega, rfl, _, rfl⟩

theorem put_end {E : Type} {v : EVec E} {xs : List E} (hv : Has v xs) (hr : v.size < v.cap) (x : E) :
    ∃ b, put v.mem v.size x = .ok b ∧ Has ⟨b, v.cap, v.size + 1⟩ (xs ++ [x]) := by
  have hvs : v.size = xs.length := hv.choose_spec.2.2
  obtain ⟨R, S, h1, h2, h3, h4⟩ := hv.split xs.length 1 (Nat.le_refl _) (by omega)
  obtain ⟨o, rfl⟩ := List.length_eq_one_iff.1 h2
  have e : v.mem = xs.map some ++ o :: S := by rw [h1]; simp
  refine ⟨xs.map some ++ some x :: S, ?_, has_of (S := S) (by simp) (by simp; omega) (by simp [h3])⟩
  rw [e, put_mid _ S o x _ (by simp [h3])]

/-- The three ways of appending share their recursion. -/
theorem grow_shape {E R : Type} (hcan : ∀ n, can n = true) (F : Nat → EVec E → Res R) (done : EVec E → Res R) (h0 : ∀ v, F 0 v = .loop)
    (hs : ∀ f v, F (f + 1) v = if v.size ≠ v.cap then done v else F f (reserve can v (nextCap v))) {v : EVec E} {xs : List E} (hv : Has v xs) (f : Nat) :
    (∀ c', room v.cap xs.length = some c' → ∃ v', F (f + 2) v = done v' ∧ Has v' xs ∧ v'.size < v'.cap ∧ v'.cap = c') ∧
      (room v.cap xs.length = none → F (f + 2) v = .loop) := by
  have hle := hv.le
  have hvs : v.size = xs.length := hv.choose_spec.2.2
  refine ⟨fun c' hc' => ?_, fun hn => ?_⟩
  · unfold room at hc'
    split at hc'
    · cases hc'
      exact ⟨v, by rw [hs, if_pos (by omega)], hv, by omega, rfl⟩
    · have hsc : v.size = v.cap := by omega
      have hg : v.cap ≠ 1 ∧ nextCap v = c' := by
        unfold nextCap
        split at hc'
        · cases hc'; rename_i h; simp [h]
        · split at hc'
          · cases hc'
          · cases hc'; rename_i h1 h2; exact ⟨h2, by rw [if_pos h1]⟩
      have hG : Grows can v := Or.inr ⟨hg.1, hcan _⟩
      have hlt := hG.next hv (by omega)
      refine ⟨reserve can v (nextCap v), ?_, hv.reserve _, hlt, ?_⟩
      · rw [hs, if_neg (by omega), hs, if_pos (by omega)]
      · have hn : v.cap < nextCap v := by
          have := hg.1
          unfold nextCap; split <;> omega
        unfold ElemVec.reserve
        rw [if_pos hn, if_pos (hcan _)]
        exact hg.2
  · unfold room at hn
    split at hn
    · cases hn
    · split at hn
      · cases hn
      · split at hn
        · rename_i h1 h2 h3
          have hfix : reserve can v (nextCap v) = v := by simp [ElemVec.reserve, nextCap, h3]
          have : ∀ g, F g v = .loop := by
            intro g
            induction g with
            | zero => exact h0 v
            | succ g ih => rw [hs, if_neg (by omega), hfix, ih]
          exact this _
        · cases hn

theorem add_leaves {v : EVec (Vec α)} {cap : Nat} {ps : List (Nat × List α)} (hv : Rep v cap ps) (hcan : ∀ n, can n = true)
    (F : Nat → EVec (Vec α) → Res (EVec (Vec α))) (w : Vec α) (l : List α) (hw : Vec.Rep w l) (h0 : ∀ v, F 0 v = .loop)
    (hs : ∀ f v, F (f + 1) v = if v.size ≠ v.cap then (do let b ← put v.mem v.size w; .ok ⟨b, v.cap, v.size + 1⟩)
      else F f (reserve can v (nextCap v))) (f : Nat) : Leaves (F (f + 2) v) (add cap ps (w.cap, l)) := by
  obtain ⟨h0', qs, h1, h2, h3⟩ := hv
  have hlen : ps.length = (qs.map (·.1)).length := by simp [h2]
  obtain ⟨A, B⟩ := grow_shape hcan F (fun v => (do let b ← put v.mem v.size w; .ok ⟨b, v.cap, v.size + 1⟩)) h0 hs h1 f
  rw [h0', ← hlen] at A B
  unfold add
  cases hr : room cap ps.length with
  | none => exact B hr
  | some c' =>
    obtain ⟨v', e, a, b, d⟩ := A c' hr
    obtain ⟨m, e1, e2⟩ := put_end a b w
    refine ⟨⟨m, v'.cap, v'.size + 1⟩, by rw [e]; simp only [e1, Res.ok_bind], d, qs ++ [(w, l)], by simpa using e2, by simp [h2], ?_⟩
    intro q hq
    rcases List.mem_append.1 hq with hq | hq
    · exact h3 q hq
    · rw [List.mem_singleton.1 hq]; exact hw

theorem atIndex_ok {E : Type} {v : EVec E} {xs : List E} (hv : Has v xs) {i : Nat} (hi : i < xs.length) (g : E → Res E) :
    atIndex g v i = (do let e ← g xs[i]; .ok ⟨v.mem.set i (some e), v.cap, v.size⟩) ∧
      ∀ e, Has ⟨v.mem.set i (some e), v.cap, v.size⟩ (xs.set i e) := by
  obtain ⟨rest, h1, h2, h3⟩ := hv
  have ho : obj v.mem i = .ok xs[i] := by
    unfold obj; rw [h1, List.getElem?_append_left (by simpa using hi)]; simp [hi]
  refine ⟨?_, fun e => ⟨rest, ?_, by simpa using h2, by simpa using h3⟩⟩
  · unfold atIndex
    rw [ho, Res.ok_bind]
    cases g xs[i] with
    | ok e =>
      have : i < v.mem.length := by rw [h1]; simp; omega
      simp [Res.ok_bind, put, this]
    | ub => rfl
    | loop => rfl
  · show v.mem.set i (some e) = _
    rw [h1, List.set_append_left _ _ (by simpa using hi)]; simp [List.map_set]

theorem inner_leaves {v : EVec (Vec α)} {cap : Nat} {ps : List (Nat × List α)} (hv : Rep v cap ps) {i : Nat} (hi : i < ps.length) (g : Vec α → Res (Vec α))
    {c' : Nat} {l' : List α} (hg : ∀ w, Vec.Rep w ps[i].2 → w.cap = ps[i].1 → ∃ w', g w = .ok w' ∧ Vec.Rep w' l' ∧ w'.cap = c') :
    Leaves (atIndex g v i) (.back cap (ps.set i (c', l'))) := by
  obtain ⟨h0', qs, h1, h2, h3⟩ := hv
  subst h2
  have hq : i < qs.length := by simpa using hi
  obtain ⟨w', a, b, d⟩ := hg qs[i].1 (by simpa using h3 _ (List.getElem_mem hq)) (by simp)
  obtain ⟨e1, e2⟩ := atIndex_ok h1 (i := i) (by simpa using hq) g
  refine ⟨⟨v.mem.set i (some w'), v.cap, v.size⟩, by rw [e1]; simp only [List.getElem_map]; rw [a, Res.ok_bind], h0', qs.set i (w', l'), by simpa [List.map_set] using e2 w', ?_, ?_⟩
  · simp [List.map_set, d]
  · intro q hq
    rcases List.mem_or_eq_of_mem_set hq with hq | rfl
    · exact h3 q hq
    · exact b

theorem copyAll_vec : ∀ qs : List (Vec α × List α), (∀ q ∈ qs, Vec.Rep q.1 q.2) →
    ∃ rs : List (Vec α × List α), copyAll vecCls (qs.map (·.1)) = .ok (rs.map (·.1)) ∧ (rs.map fun r => (r.1.cap, r.2)) = qs.map (fun q => (q.2.length, q.2)) ∧
      ∀ r ∈ rs, Vec.Rep r.1 r.2 := by
  intro qs
  induction qs with
  | nil => intro _; exact ⟨[], rfl, rfl, by simp⟩
  | cons q qs ih =>
    intro h
    obtain ⟨rs, a, b, d⟩ := ih (fun p hp => h p (by simp [hp]))
    have hc : (vecCls (α := α)).copy q.1 = .ok ⟨q.2.map .live, q.2.length, q.2.length⟩ := copy_ok (h q (by simp))
    refine ⟨(⟨q.2.map .live, q.2.length, q.2.length⟩, q.2) :: rs, ?_, by simp [b], ?_⟩
    · simp only [List.map_cons, copyAll]
      rw [hc, Res.ok_bind, a]; rfl
    · intro r hr
      rcases List.mem_cons.1 hr with rfl | hr
      · exact ⟨by simp, rfl, [], by simp⟩
      · exact d r hr

theorem popBack_has {E : Type} {v : EVec E} {xs : List E} (hv : Has v xs) : ∃ v', popBack v = .ok v' ∧ Has v' xs.dropLast ∧ v'.cap = v.cap := by
  rcases List.eq_nil_or_concat xs with rfl | ⟨ys, y, rfl⟩
  · refine ⟨v, ?_, hv, rfl⟩
    rw [popBack, if_neg (by have := hv.choose_spec.2.2; simpa using this)]
  · rw [List.concat_eq_append] at *
    obtain ⟨rest, a, b, d⟩ := hv
    have e := destroy_ok [y] (ys.map some) rest
    have hs : v.size = ys.length + 1 := by simpa using d
    refine ⟨⟨ys.map some ++ none :: rest, v.cap, v.size - 1⟩, ?_, has_of (S := none :: rest) (by simp) ?_ (by simp [hs]), rfl⟩
    · rw [popBack, if_pos (by omega)]
      have ea : v.mem = ys.map some ++ ([y].map some ++ rest) := by rw [a]; simp
      have eb : v.size - 1 = (ys.map some).length := by simp [hs]
      rw [ea, eb]
      simp only [List.length_cons, List.length_nil] at e
      rw [e]; rfl
    · rw [← b, a]; simp

theorem step_leaves {v : EVec (Vec α)} {cap : Nat} {ps : List (Nat × List α)} (hv : Rep v cap ps) (hcan : ∀ n, can n = true) (f : Nat) (o : Call α)
    (ho : valid ps o) : Leaves (step triv can (f + 2) v o) (call cap ps o) := by
  cases o with
  | push c xs =>
    have hw := vecOf_rep (c := c) ho
    have hcp : (vecCls (α := α)).copy (vecOf c xs) = .ok ⟨xs.map .live, xs.length, xs.length⟩ := copy_ok hw
    refine add_leaves hv hcan (fun f v => pushBack vecCls can f v (vecOf c xs)) ⟨xs.map .live, xs.length, xs.length⟩ xs ⟨by simp, rfl, [], by simp⟩
      (fun _ => rfl) (fun f v => ?_) f
    simp only [pushBack, hcp, Res.ok_bind]
  | give c xs =>
    refine add_leaves hv hcan (fun f v => (do let r ← pushBackMove vecCls can f v (vecOf c xs); .ok r.1)) (vecOf c xs) xs (vecOf_rep ho)
      (fun _ => rfl) (fun f v => ?_) f
    simp only [pushBackMove]
    split
    · show (do let r ← (do let b ← put v.mem v.size (vecOf c xs); _); _) = _
      cases put v.mem v.size (vecOf c xs) <;> rfl
    · rfl
  | emplace =>
    exact add_leaves hv hcan (fun f v => emplaceBack can f v Vec.empty) Vec.empty [] ⟨rfl, rfl, [], rfl⟩ (fun _ => rfl) (fun f v => rfl) f
  | pushOwn i =>
    have hi : i < ps.length := ho
    obtain ⟨h0', qs, h1, h2, h3⟩ := hv
    have hle := h1.le
    have hvs : v.size = ps.length := by rw [h1.choose_spec.2.2, h2]; simp
    simp only [step, call, pushBackOwn]
    by_cases hlt : ps.length < cap
    · rw [if_pos hlt, if_pos (by omega), List.getElem?_eq_getElem hi]
      subst h2
      have hq : i < qs.length := by simpa using hi
      obtain ⟨rest, m1, m2, m3⟩ := id h1
      have hob : obj v.mem i = .ok qs[i].1 := by
        unfold obj; rw [m1, List.getElem?_append_left (by simpa using hq)]; simp [hq]
      have hr := h3 _ (List.getElem_mem hq)
      rw [hob, Res.ok_bind, pushBack, if_pos (by omega)]
      have hcp : (vecCls (α := α)).copy qs[i].1 = .ok ⟨qs[i].2.map .live, qs[i].2.length, qs[i].2.length⟩ := copy_ok hr
      rw [hcp, Res.ok_bind]
      obtain ⟨b, e1, e2⟩ := put_end h1 (by omega) (⟨qs[i].2.map .live, qs[i].2.length, qs[i].2.length⟩ : Vec α)
      rw [e1, Res.ok_bind]
      refine ⟨_, rfl, h0', qs ++ [(⟨qs[i].2.map .live, qs[i].2.length, qs[i].2.length⟩, qs[i].2)], by simpa using e2, by simp, ?_⟩
      intro q hq
      rcases List.mem_append.1 hq with hq | hq
      · exact h3 q hq
      · rw [List.mem_singleton.1 hq]; exact ⟨by simp, rfl, [], by simp⟩
    · rw [if_neg hlt, if_neg (show ¬ v.size ≠ v.cap by omega)]
      by_cases h1c : cap = 1
      · rw [if_pos h1c, if_neg (by unfold nextCap; rw [h0', h1c]; simp)]; rfl
      · rw [if_neg h1c, if_pos ⟨by unfold nextCap; split <;> omega, hcan _⟩]; rfl
  | pop =>
    obtain ⟨h0', qs, h1, h2, h3⟩ := hv
    obtain ⟨v', a, b, d⟩ := popBack_has h1
    exact ⟨v', a, by rw [d, h0'], qs.dropLast, by simpa [List.map_dropLast] using b, by simp [h2, List.map_dropLast],
      fun q hq => h3 q (List.dropLast_subset _ hq)⟩
  | clean =>
    obtain ⟨h0', qs, ⟨rest, a, b, d⟩, h2, h3⟩ := hv
    have e := destroy_ok (qs.map (·.1)) [] rest
    simp only [List.nil_append, List.length_nil] at e
    refine ⟨⟨List.replicate (qs.map (·.1)).length none ++ rest, v.cap, 0⟩, ?_, h0', [], has_of (S := List.replicate (qs.map (·.1)).length none ++ rest) rfl ?_ rfl,
      rfl, by simp⟩
    · simp only [step]; rw [ElemVec.clean, a, d, e]; rfl
    · rw [← b, a]; simp
  | reserve n =>
    obtain ⟨h0', qs, h1, h2, h3⟩ := hv
    refine ⟨_, rfl, ?_, qs, h1.reserve n, h2, h3⟩
    unfold ElemVec.reserve
    split
    · rw [if_pos (hcan _)]; show n = _; omega
    · omega
  | copySelf =>
    obtain ⟨h0', qs, h1, h2, h3⟩ := hv
    have hvs : v.size = qs.length := by rw [h1.choose_spec.2.2]; simp
    obtain ⟨rs, a, b, d⟩ := copyAll_vec qs h3
    have hl : rs.length = qs.length := by simpa using congrArg List.length b
    refine ⟨⟨(rs.map (·.1)).map some, v.size, v.size⟩, ?_, by simp [hvs, h2], rs,
      has_of (S := []) (by simp) (by simp; omega) (by simp; omega), by simp [h2, b, Function.comp_def], d⟩
    simp only [step]
    rw [copyCtor, h1.elems, Res.ok_bind, a]; rfl
  | append i x =>
    have hi : i < ps.length := ho
    simp only [step, call]
    rw [List.getElem?_eq_getElem hi]
    show Leaves _ (match room ps[i].1 ps[i].2.length with | some c => _ | none => _)
    cases hr : room ps[i].1 ps[i].2.length with
    | some c =>
      refine inner_leaves hv hi _ (fun w hw hc => ?_)
      have hle := hw.size_le_cap
      have hsz := hw.2.1
      unfold room at hr
      obtain ⟨w', a, b, d, _⟩ := Vec.pushBack_ok hcan hw (f := f) (by
        rintro ⟨s1, c1⟩
        rw [if_neg (by omega), if_neg (by omega), if_pos (by omega)] at hr
        cases hr) x
      refine ⟨w', a, b, ?_⟩
      rw [d]
      split at hr
      · cases hr; rw [if_neg (by omega)]; exact hc
      · rw [if_pos (by omega)]
        unfold Vec.nextCap
        split at hr
        · cases hr; rw [if_neg (by omega)]
        · split at hr
          · cases hr
          · cases hr; rw [if_pos (by omega), hc]
    | none =>
      show atIndex _ v i = .loop
      obtain ⟨h0', qs, h1, h2, h3⟩ := hv
      subst h2
      have hq : i < qs.length := by simpa using hi
      have hR := h3 _ (List.getElem_mem hq)
      have hle := hR.size_le_cap
      have hsz := hR.2.1
      simp only [List.getElem_map] at hr
      unfold room at hr
      have hst : qs[i].1.size = 1 ∧ qs[i].1.cap = 1 := by
        split at hr
        · cases hr
        · split at hr
          · cases hr
          · split at hr
            · omega
            · cases hr
      obtain ⟨e1, _⟩ := atIndex_ok h1 (i := i) (by simpa using hq) (fun w => w.pushBack can (f + 2) x)
      rw [e1]
      simp only [List.getElem_map]
      rw [Vec.pushBack_stuck hst.1 hst.2]; rfl
  | drop i =>
    have hi : i < ps.length := ho
    simp only [step, call]
    rw [List.getElem?_eq_getElem hi]
    refine inner_leaves hv hi _ (fun w hw hc => ?_)
    obtain ⟨w', a, b, d, _⟩ := Vec.popBack_ok (triv := triv) hw
    exact ⟨w', a, b, by rw [d, hc]⟩
  | wipe i =>
    have hi : i < ps.length := ho
    simp only [step, call]
    rw [List.getElem?_eq_getElem hi]
    refine inner_leaves hv hi _ (fun w hw hc => ?_)
    obtain ⟨w', a, b, d, _⟩ := Vec.clean_ok (triv := triv) hw
    exact ⟨w', a, b, by rw [d, hc]⟩

theorem run_leaves (hcan : ∀ n, can n = true) (f : Nat) : ∀ (os : List (Call α)) {v : EVec (Vec α)} {cap : Nat} {ps : List (Nat × List α)}, Rep v cap ps →
    ValidHist cap ps os → Leaves (run triv can (f + 2) v os) (hist cap ps os) := by
  intro os
  induction os with
  | nil => intro v cap ps hv _; exact ⟨v, rfl, hv⟩
  | cons o os ih =>
    intro v cap ps hv hh
    have hstep := step_leaves (triv := triv) hv hcan f o hh.1
    have hrest := hh.2
    unfold hist
    cases hc : call cap ps o with
    | back c' ps' =>
      rw [hc] at hstep hrest
      obtain ⟨v', a, b⟩ := hstep
      rw [run, a, Res.ok_bind]
      exact ih b hrest
    | undefined =>
      rw [hc] at hstep
      have : step triv can (f + 2) v o = .ub := hstep
      show run triv can (f + 2) v (o :: os) = .ub
      rw [run, this]; rfl
    | never =>
      rw [hc] at hstep
      have : step triv can (f + 2) v o = .loop := hstep
      show run triv can (f + 2) v (o :: os) = .loop
      rw [run, this]; rfl

end Flame.Nested

namespace Flame
open ElemVec NestSpec
variable {α : Type}

/-- **C202, exactly.**  What every history of calls on a new vector of vectors does: the capacities and the elements of all its vectors, or that the history is
undefined, or that it never comes to an end. -/
theorem C202_history_exact (triv : Bool) {can : Nat → Bool} (hcan : ∀ n, can n = true) (os : List (Call α)) (hv : ValidHist 0 [] os) (f : Nat) :
    Nested.Seen (Nested.run triv can (f + 2) EVec.empty os) (hist 0 [] os) :=
  (Nested.run_leaves hcan f os (v := EVec.empty) ⟨rfl, [], ⟨[], rfl, rfl, rfl⟩, rfl, by simp⟩ hv).seen

example := C202_history_exact true (can := fun _ => true) (fun _ => rfl)
  [.push 4 [1, 2], .give 4 [3, 4, 5], .emplace, .append 2 6, .append 0 7, .pushOwn 1, .drop 1, .wipe 0, .pop, .copySelf, .append 1 8] (by decide) 0
example : hist 0 [] [.push 4 [1, 2], .give 4 [3, 4, 5], .emplace, .append 2 6, .append 0 7, .pushOwn 1, .drop 1, .wipe 0, .pop, .copySelf, .append 1 8] =
  .back 3 [(0, []), (3, [3, 4, 8]), (1, [6])] := rfl

/-- The calls of a program that only appends, gives away, emplaces, drops and reserves. -/
def NestSpec.simple : Call α → Prop
  | .push c xs | .give c xs => xs.length ≤ c
  | .emplace | .pop | .clean => True
  | .reserve n => n ≠ 1
  | _ => False

/-- What a list of lists would hold after such a call. -/
def NestSpec.asList (ls : List (List α)) : Call α → List (List α)
  | .push _ xs | .give _ xs => ls ++ [xs]
  | .emplace => ls ++ [[]]
  | .pop => ls.dropLast
  | .clean => []
  | _ => ls

theorem NestSpec.room_some {cap : Nat} (hc : cap ≠ 1) (n : Nat) : ∃ k, room cap n = some k ∧ k ≠ 1 := by
  unfold room
  by_cases h1 : n < cap
  · exact ⟨cap, if_pos h1, hc⟩
  · by_cases h2 : cap = 0
    · exact ⟨8, by rw [if_neg h1, if_pos h2], by decide⟩
    · exact ⟨cap * 3 / 2, by rw [if_neg h1, if_neg h2, if_neg hc], by omega⟩

theorem NestSpec.add_back {cap : Nat} (hc : cap ≠ 1) (ps : List (Nat × List α)) (p : Nat × List α) :
    ∃ c', add cap ps p = .back c' (ps ++ [p]) ∧ c' ≠ 1 := by
  obtain ⟨k, a, b⟩ := room_some hc ps.length
  exact ⟨k, by rw [add, a], b⟩

theorem NestSpec.simple_call {cap : Nat} (hc : cap ≠ 1) (ps : List (Nat × List α)) {o : Call α} (ho : simple o) :
    valid ps o ∧ ∃ c' ps', call cap ps o = .back c' ps' ∧ c' ≠ 1 ∧ ps'.map (·.2) = asList (ps.map (·.2)) o := by
  cases o with
  | push c xs => obtain ⟨c', a, b⟩ := add_back hc ps (xs.length, xs); exact ⟨ho, c', _, a, b, by simp [asList]⟩
  | give c xs => obtain ⟨c', a, b⟩ := add_back hc ps (c, xs); exact ⟨ho, c', _, a, b, by simp [asList]⟩
  | emplace => obtain ⟨c', a, b⟩ := add_back hc ps (0, []); exact ⟨ho, c', _, a, b, by simp [asList]⟩
  | pop => exact ⟨trivial, cap, _, rfl, hc, by simp [asList, List.map_dropLast]⟩
  | clean => exact ⟨trivial, cap, _, rfl, hc, rfl⟩
  | reserve n => exact ⟨trivial, _, _, rfl, by have : n ≠ 1 := ho; omega, rfl⟩
  | pushOwn => exact ho.elim
  | copySelf => exact ho.elim
  | append => exact ho.elim
  | drop => exact ho.elim
  | wipe => exact ho.elim

theorem NestSpec.simple_hist : ∀ (os : List (Call α)) (_ : ∀ o ∈ os, simple o) {cap : Nat} (_ : cap ≠ 1) (ps : List (Nat × List α)),
    ValidHist cap ps os ∧ ∃ c' ps', hist cap ps os = .back c' ps' ∧ ps'.map (·.2) = os.foldl asList (ps.map (·.2)) := by
  intro os
  induction os with
  | nil => intro _ cap _ ps; exact ⟨trivial, cap, ps, rfl, rfl⟩
  | cons o os ih =>
    intro h cap hc ps
    obtain ⟨a, c', ps', b, d, e⟩ := simple_call hc ps (h o (by simp))
    obtain ⟨x, c2, ps2, y, z⟩ := ih (fun p hp => h p (by simp [hp])) d ps'
    refine ⟨⟨a, by rw [b]; exact x⟩, c2, ps2, ?_, ?_⟩
    · unfold hist; rw [b]; exact y
    · rw [z, e]; rfl

/-- **C202, partially.**  A program that only appends (copying or moving), emplaces, drops, cleans and reserves other than exactly one place sees exactly the
inner sequences a list of lists would hold. -/
theorem C202_sequences_partial (triv : Bool) {can : Nat → Bool} (hcan : ∀ n, can n = true) (os : List (Call α)) (hv : ∀ o ∈ os, simple o) (f : Nat) :
    ∃ v ps, Nested.run triv can (f + 2) EVec.empty os = .ok v ∧ Nested.look v = .ok ps ∧ ps.map (·.2) = os.foldl asList [] := by
  obtain ⟨a, c', ps', b, d⟩ := simple_hist os hv (cap := 0) (by decide) []
  have h := C202_history_exact triv hcan os a f
  rw [b] at h
  obtain ⟨v, h1, _, _, h2⟩ := h
  exact ⟨v, ps', h1, h2, d⟩

example := C202_sequences_partial true (can := fun _ => true) (fun _ => rfl) [.push 4 [1, 2], .give 3 [3], .emplace, .pop, .reserve 30, .push 1 [5]]
  (by simp [simple]) 0

/-- **C202 violated.**  After any such program, copy a vector with a single element into the vector of vectors (whatever its capacity is), and append to the
stored one: the call never returns.  A stored vector of any other length takes the element. -/
theorem C202_append_to_stored_copy (triv : Bool) {can : Nat → Bool} (hcan : ∀ n, can n = true) (os : List (Call α)) (hv : ∀ o ∈ os, simple o) {c : Nat}
    {xs : List α} (hx : xs.length ≤ c) (y : α) (f : Nat) :
    (xs.length = 1 → Nested.run triv can (f + 2) EVec.empty (os ++ [.push c xs, .append (os.foldl asList []).length y]) = .loop) ∧
    (xs.length ≠ 1 → ∃ v ps, Nested.run triv can (f + 2) EVec.empty (os ++ [.push c xs, .append (os.foldl asList []).length y]) = .ok v ∧
      Nested.look v = .ok ps ∧ ps.map (·.2) = os.foldl asList [] ++ [xs ++ [y]]) := by
  have key : ∀ (os : List (Call α)) (_ : ∀ o ∈ os, simple o) {cap : Nat} (_ : cap ≠ 1) (ps : List (Nat × List α)), ∃ c' ps',
      ps'.map (·.2) = os.foldl asList (ps.map (·.2)) ∧
      (ValidHist cap ps (os ++ [.push c xs, .append (os.foldl asList (ps.map (·.2))).length y])) ∧
      hist cap ps (os ++ [.push c xs, .append (os.foldl asList (ps.map (·.2))).length y]) =
        (match room xs.length xs.length with | some k => .back c' (ps' ++ [(k, xs ++ [y])]) | none => .never) := by
    intro os
    induction os with
    | nil =>
      intro _ cap hc ps
      obtain ⟨c', a, _⟩ := add_back hc ps (xs.length, xs)
      have a' : call cap ps (.push c xs) = .back c' (ps ++ [(xs.length, xs)]) := a
      refine ⟨c', ps, rfl, ⟨hx, by rw [a']; exact ⟨by simp [valid], by split <;> trivial⟩⟩, ?_⟩
      have c2 : call c' (ps ++ [(xs.length, xs)]) (.append ps.length y) =
          (match room xs.length xs.length with | some k => .back c' (ps ++ [(k, xs ++ [y])]) | none => .never) := by
        simp only [call, List.getElem?_concat_length]
        cases room xs.length xs.length <;> simp
      simp only [List.nil_append, List.foldl_nil, List.length_map, hist]
      rw [a']
      simp only []
      rw [c2]
      cases room xs.length xs.length <;> rfl
    | cons o os ih =>
      intro h cap hc ps
      obtain ⟨a, c', ps', b, d, e⟩ := simple_call hc ps (h o (by simp))
      obtain ⟨c2, ps2, x1, x2, x3⟩ := ih (fun p hp => h p (by simp [hp])) d ps'
      rw [e] at x1 x2 x3
      refine ⟨c2, ps2, x1, ⟨a, by rw [b]; exact x2⟩, ?_⟩
      show hist cap ps (o :: (os ++ _)) = _
      unfold hist; rw [b]; exact x3
  obtain ⟨c', ps', h1, h2, h3⟩ := key os hv (cap := 0) (by decide) []
  have h := C202_history_exact triv hcan _ h2 f
  rw [h3] at h
  refine ⟨fun h1' => ?_, fun hn => ?_⟩
  · rw [h1'] at h; exact h
  · obtain ⟨k, hk, _⟩ := room_some hn xs.length
    rw [hk] at h
    obtain ⟨v, e1, _, _, e2⟩ := h
    exact ⟨v, _, e1, e2, by simp [h1]⟩

example := C202_append_to_stored_copy true (can := fun _ => true) (fun _ => rfl) [.push 4 [1, 2], .emplace] (by simp [simple]) (c := 5) (xs := [9]) (by decide) 7 0

/-- **C202, the vector given away.**  Moving a vector in takes its elements over and leaves an empty vector that still believes in its old capacity: the next
append to it is undefined unless that capacity was zero. -/
theorem C202_given_away {can : Nat → Bool} (hcan : ∀ n, can n = true) {v : EVec (Vec α)} {ws : List (Vec α)} (hv : Has v ws) (hc : v.cap ≠ 1) {w : Vec α}
    {xs : List α} (hw : Vec.Rep w xs) (y : α) (f : Nat) :
    ∃ v' w', pushBackMove Nested.vecCls can (f + 2) v w = .ok (v', w') ∧ Has v' (ws ++ [w]) ∧ w'.toList = .ok [] ∧ w'.cap = w.cap ∧
      (w.cap ≠ 0 → w'.pushBack can (f + 2) y = .ub) ∧ (w.cap = 0 → ∃ u, w'.pushBack can (f + 2) y = .ok u ∧ u.toList = .ok [y]) := by
  obtain ⟨A, _⟩ := Nested.grow_shape hcan (fun f v => pushBackMove (Nested.vecCls (α := α)) can f v w)
    (fun v => (do let b ← put v.mem v.size w; .ok (⟨b, v.cap, v.size + 1⟩, w.moveCtor.2))) (fun _ => rfl) (fun _ _ => rfl) hv f
  obtain ⟨k, hk, _⟩ := room_some hc ws.length
  obtain ⟨v', e, a, b, _⟩ := A k hk
  obtain ⟨m, e1, e2⟩ := Nested.put_end a b w
  refine ⟨_, w.moveCtor.2, by rw [e]; simp only [e1, Res.ok_bind], e2, rfl, rfl, fun h => C02_append_to_moved_from_ub can h y _, fun h => ?_⟩
  have hr : Vec.Rep (w.moveCtor.2) ([] : List α) := ⟨by simp [Vec.moveCtor, h], rfl, [], rfl⟩
  obtain ⟨u, p, q, _⟩ := Vec.pushBack_ok hcan hr (f := f) (by simp [Vec.moveCtor]) y
  exact ⟨u, p, (rep_observe q).1⟩

example := C202_given_away (can := fun _ => true) (fun _ => rfl) (v := EVec.empty) (ws := []) ⟨[], rfl, rfl, rfl⟩ (by decide)
  (Nested.vecOf_rep (c := 4) (xs := [5, 6]) (by decide)) 7 0

end Flame
