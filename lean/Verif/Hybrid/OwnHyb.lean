import Verif.Array.OwnArr
import Verif.Hybrid.ElemModel

/-!
# C206: a `HybridVector` of `UniquePointer`s

The pointers are carried from the built-in array to a heap vector and back (HybridVector.hpp 1990-2053); what they leave behind is destroyed.  Calls that compile
for elements that can only be moved: `pushBack(&&)`, `emplaceBack()` without arguments (`forward(args)...` needs a template argument), `popBack`, `clean`, `erase`.
-/

namespace Flame.OwnHybSpec
open OwnVecSpec (objects)

/-- The calls. -/
inductive Call where
  /-- a new pointer with a new object, moved in by `pushBack(move(p))`, and then destroyed -/
  | give
  /-- the same with `makeEmpty()` -/
  | giveNull
  /-- `emplaceBack()` -/
  | emplaceBack
  /-- `popBack()` -/
  | pop
  /-- `clean()` -/
  | clean
  /-- `erase(begin() + i)` -/
  | erase (i : Nat)
  /-- `erase(begin() + i, begin() + j)` -/
  | eraseRange (i j : Nat)
  deriving Repr

/-- Where the pointers are. -/
inductive Where where
  | nowhere | array | vector
  deriving Repr, DecidableEq

/-- How a history ends. -/
inductive End where
  | back (w : Where) (held : List (Option Nat)) (made : Nat) (gone : List Nat)
  | undefined
  deriving Repr, DecidableEq

/-- Positions lie inside the container. -/
def valid (held : List (Option Nat)) : Call → Prop
  | .erase i => i ≤ held.length
  | .eraseRange i j => i ≤ j ∧ j ≤ held.length
  | _ => True

instance (held : List (Option Nat)) (o : Call) : Decidable (valid held o) := by cases o <;> unfold valid <;> infer_instance

/-- The place after one more was added to `n`. -/
def afterAdding (N n : Nat) : Where → Where
  | .vector => .vector
  | _ => if n < N then .array else .vector

/-- The place after an erasure that left `n`. -/
def afterErasing (N n : Nat) : Where → Where
  | .nowhere => .nowhere
  | .array => if n = 0 then .nowhere else .array
  | .vector => if n < N then .array else .vector

/-- The outcome of one call on a container with built-in room for `N`. -/
def call (N : Nat) (w : Where) (held : List (Option Nat)) (made : Nat) (gone : List Nat) : Call → End
  | .give | .emplaceBack => .back (afterAdding N held.length w) (held ++ [some made]) (made + 1) gone
  | .giveNull => .back (afterAdding N held.length w) (held ++ [none]) made gone
  | .pop => .back w held.dropLast made (gone ++ objects (held.drop (held.length - 1)))
  | .clean => .back .array [] made (gone ++ objects held)
  | .erase i => .back (afterErasing N (held.eraseIdx i).length w) (held.eraseIdx i) made (gone ++ objects ((held.drop i).take 1))
  | .eraseRange i j =>
    if i = j then .back (afterErasing N held.length w) held made gone
    else if j = held.length then .back (afterErasing N i w) (held.take i) made (gone ++ objects (held.drop i))
    else .undefined

/-- The outcome of a history. -/
def hist (N : Nat) (w : Where) (held : List (Option Nat)) (made : Nat) (gone : List Nat) : List Call → End
  | [] => .back w held made gone
  | o :: os => match call N w held made gone o with
    | .back w h m g => hist N w h m g os
    | e => e

/-- The caller respects the rules as long as the history goes on. -/
def ValidHist (N : Nat) (w : Where) (held : List (Option Nat)) (made : Nat) (gone : List Nat) : List Call → Prop
  | [] => True
  | o :: os => valid held o ∧ match call N w held made gone o with
    | .back w h m g => ValidHist N w h m g os
    | _ => True

instance decValidHist (N : Nat) : (w : Where) → (held : List (Option Nat)) → (made : Nat) → (gone : List Nat) → (os : List Call) →
    Decidable (ValidHist N w held made gone os)
  | _, _, _, _, [] => isTrue trivial
  | w, held, made, gone, o :: os => by
    unfold ValidHist
    have : Decidable (match call N w held made gone o with | .back w h m g => ValidHist N w h m g os | _ => True) := by
      cases call N w held made gone o with
      | back w h m g => exact decValidHist N w h m g os
      | undefined => exact isTrue trivial
    infer_instance

end Flame.OwnHybSpec

namespace Flame.OwnHyb
open Flame ElemVec OwnHybSpec
open ElemHyb (EHyb)
open OwnVec (cleanPtr destroy)
open OwnVecSpec (objects)
variable {can : Nat → Bool}

/-- The container, the number of objects made, the objects destroyed. -/
structure St where
  h : EHyb (Option Nat)
  made : Nat
  gone : List Nat

/-- Array.hpp 780-789: `pushBack(&&)`. -/
def arrPush (p : Option Nat) (v : EVec (Option Nat)) : Res (EVec (Option Nat)) :=
  if v.size < v.cap then do
    let b ← put v.mem v.size p
    .ok ⟨b, v.cap, v.size + 1⟩
  else .ok v

/-- The loops of HybridVector.hpp 2006-2009, 2038-2041 and Array.hpp 466-472: `n` pointers from `i` on are moved out, each leaving null. -/
def moveInto (push : Option Nat → EVec (Option Nat) → Res (EVec (Option Nat))) : Nat → Nat → Slots (Option Nat) → EVec (Option Nat) →
    Res (Slots (Option Nat) × EVec (Option Nat))
  | 0, _, b, v => .ok (b, v)
  | n + 1, i, b, v => do
    let p ← obj b i
    let v ← push p v
    let b ← put b i none
    moveInto push n (i + 1) b v

/-- The first `n` pointers of `src` are moved into `dst`, then all of `src` is destroyed. -/
def carry (push : Option Nat → EVec (Option Nat) → Res (EVec (Option Nat))) (n : Nat) (src dst : EVec (Option Nat)) (gone : List Nat) :
    Res (EVec (Option Nat) × List Nat) := do
  let r ← moveInto push n 0 src.mem dst
  let d ← destroy src.size 0 r.1 gone
  .ok (r.2, d.2)

/-- HybridVector.hpp 2024-2045, array branch: a vector with twice the room. -/
def useVector (can : Nat → Bool) (f : Nat) (a : EVec (Option Nat)) (gone : List Nat) : Res (EVec (Option Nat) × List Nat) :=
  carry (fun p v => OwnVec.pushPtr can p f v) a.size a (reserve can EVec.empty (a.size * 2)) gone

/-- HybridVector.hpp 1992-2013, vector branch; the array is moved twice more: into a temporary variant and into the container (2012; Variant.hpp 466-473,
494-504). -/
def useArray (N : Nat) (v : EVec (Option Nat)) (gone : List Nat) : Res (EVec (Option Nat) × List Nat) := do
  let r ← carry arrPush (if v.size > N then N else v.size) v (ElemArr.empty N) gone
  let r ← carry arrPush r.1.size r.1 (ElemArr.empty N) r.2
  carry arrPush r.1.size r.1 (ElemArr.empty N) r.2

/-- HybridVector.hpp 1701-1712 (1731-1743). -/
def pushArr (can : Nat → Bool) (f : Nat) (a : EVec (Option Nat)) (p : Option Nat) (gone : List Nat) : Res (EHyb (Option Nat) × List Nat) :=
  if a.cap > a.size then do
    let a ← arrPush p a
    .ok (.arr a, gone)
  else do
    let r ← useVector can f a gone
    let v ← OwnVec.pushPtr can p f r.1
    .ok (.vec v, r.2)

/-- HybridVector.hpp 1696-1724 (1726-1755): the pointer `p` is moved in; what is left of it is null. -/
def push (can : Nat → Bool) (N f : Nat) (s : St) (p : Option Nat) : Res (EHyb (Option Nat) × List Nat) :=
  match s.h with
  | .unset => pushArr can f (ElemArr.empty N) p s.gone
  | .arr a => pushArr can f a p s.gone
  | .vec v => do
    let v ← OwnVec.pushPtr can p f v
    .ok (.vec v, s.gone)

/-- The tails of HybridVector.hpp 1936-1940, 1962-1966 (an empty array is destroyed) and 1945-1950, 1971-1976. -/
def shrink (N : Nat) (isVec : Bool) (s : OwnVec.St) : Res St :=
  if isVec then
    if s.v.size < N then do
      let r ← useArray N s.v s.gone
      .ok ⟨.arr r.1, s.made, r.2⟩
    else .ok ⟨.vec s.v, s.made, s.gone⟩
  else if s.v.size = 0 then .ok ⟨.unset, s.made, s.gone⟩
  else .ok ⟨.arr s.v, s.made, s.gone⟩

/-- One call: pushes as above; HybridVector.hpp 1757-1771 (`popBack`), 1463-1468 (`clean`), 1929-1953 and 1955-1979 (`erase`). -/
def step (can : Nat → Bool) (N f : Nat) (s : St) : Call → Res St
  | .give | .emplaceBack => do
    let r ← push can N f s (some s.made)
    .ok ⟨r.1, s.made + 1, r.2⟩
  | .giveNull => do
    let r ← push can N f s none
    .ok ⟨r.1, s.made, r.2⟩
  | .pop => match s.h with
    | .unset => .ok s
    | .arr a => do
      let r ← OwnVec.popBack ⟨a, s.made, s.gone⟩
      .ok ⟨.arr r.v, r.made, r.gone⟩
    | .vec v => do
      let r ← OwnVec.popBack ⟨v, s.made, s.gone⟩
      .ok ⟨.vec r.v, r.made, r.gone⟩
  | .clean => match s.h with
    | .unset => .ok ⟨.arr (ElemArr.empty N), s.made, s.gone⟩
    | .arr v | .vec v => do
      let r ← OwnVec.clean ⟨v, s.made, s.gone⟩
      .ok ⟨.arr (ElemArr.empty N), r.made, r.gone⟩
  | .erase i => match s.h with
    | .unset => .ok s
    | .arr a => do
      let r ← OwnVec.erase ⟨a, s.made, s.gone⟩ i
      shrink N false r
    | .vec v => do
      let r ← OwnVec.erase ⟨v, s.made, s.gone⟩ i
      shrink N true r
  | .eraseRange i j => match s.h with
    | .unset => .ok s
    | .arr a => do
      let r ← OwnArr.eraseRange ⟨a, s.made, s.gone⟩ i j
      shrink N false r
    | .vec v => do
      let r ← OwnVec.eraseRange ⟨v, s.made, s.gone⟩ i j
      shrink N true r

/-- A history. -/
def run (can : Nat → Bool) (N f : Nat) (s : St) : List Call → Res St
  | [] => .ok s
  | o :: os => do
    let s ← step can N f s o
    run can N f s os

/-- A new container (HybridVector.hpp 313). -/
def init : St := ⟨.unset, 0, []⟩

/-- The destructor (HybridVector.hpp 341; Variant.hpp 478-482): that of the array or vector in use. -/
def destruct (s : St) : Res (List Nat) :=
  match s.h with
  | .unset => .ok s.gone
  | .arr v | .vec v => do
    let r ← destroy v.size 0 v.mem s.gone
    .ok r.2

/-- The container holds the pointers where the specification says. -/
def Holds (N : Nat) : EHyb (Option Nat) → Where → List (Option Nat) → Prop
  | .unset, w, held => w = .nowhere ∧ held = []
  | .arr v, w, held => w = .array ∧ Has v held ∧ v.cap = N
  | .vec v, w, held => w = .vector ∧ Has v held ∧ 2 ≤ v.cap

def Leaves (N : Nat) (r : Res St) : End → Prop
  | .back w held m g => ∃ s, r = .ok s ∧ Holds N s.h w held ∧ s.made = m ∧ s.gone = g ∧ OwnVec.Inv held m g
  | .undefined => r = .ub

/-- What a user sees: size, elements and storage. -/
def Shows : EHyb (Option Nat) → Where → List (Option Nat) → Prop
  | .unset, w, held => w = .nowhere ∧ held = []
  | .arr v, w, held => w = .array ∧ v.size = held.length ∧ elems v.mem 0 v.size = .ok held
  | .vec v, w, held => w = .vector ∧ v.size = held.length ∧ elems v.mem 0 v.size = .ok held

/-- The code ends as the specification says; if it comes back, the destructor then destroys the objects left, in order. -/
def Seen (r : Res St) : End → Prop
  | .back w held m g => ∃ s, r = .ok s ∧ Shows s.h w held ∧ s.made = m ∧ s.gone = g ∧ destruct s = .ok (g ++ held.filterMap id)
  | .undefined => r = .ub

theorem Holds.shows {N : Nat} {h : EHyb (Option Nat)} {w : Where} {held : List (Option Nat)} (hh : Holds N h w held) : Shows h w held := by
  cases h with
  | unset => exact hh
  | arr v => exact ⟨hh.1, hh.2.1.choose_spec.2.2, hh.2.1.elems⟩
  | vec v => exact ⟨hh.1, hh.2.1.choose_spec.2.2, hh.2.1.elems⟩

theorem destruct_ok {N : Nat} {s : St} {w : Where} {held : List (Option Nat)} (hh : Holds N s.h w held) (hI : OwnVec.Inv held s.made s.gone) :
    destruct s = .ok (s.gone ++ objects held) := by
  obtain ⟨h, made, gone⟩ := s
  have one : ∀ v : EVec (Option Nat), Has v held → (do let r ← destroy v.size 0 v.mem gone; .ok r.2 : Res (List Nat)) = .ok (gone ++ objects held) := by
    intro v hv
    obtain ⟨rest, a, b, d⟩ := hv
    have := OwnVec.destroy_ok held [] rest gone hI.nodup
    rw [d, a]
    simp only [List.nil_append, List.length_nil] at this
    rw [this]; rfl
  cases h with
  | unset => obtain ⟨_, rfl⟩ := hh; simp [destruct, objects]
  | arr v => exact one v hh.2.1
  | vec v => exact one v hh.2.1

theorem Leaves.seen {N : Nat} {r : Res St} {e : End} (h : Leaves N r e) : Seen r e := by
  cases e with
  | back w held m g =>
    obtain ⟨s, a, b, rfl, rfl, hI⟩ := h
    exact ⟨s, a, b.shows, rfl, rfl, destruct_ok b hI⟩
  | undefined => exact h

theorem empty_has (N : Nat) : Has (ElemArr.empty N : EVec (Option Nat)) [] := ⟨List.replicate N none, rfl, by simp [ElemArr.empty], rfl⟩

theorem arrPush_ok {v : EVec (Option Nat)} {xs : List (Option Nat)} (hv : Has v xs) (h : xs.length < v.cap) (p : Option Nat) :
    ∃ v', arrPush p v = .ok v' ∧ Has v' (xs ++ [p]) ∧ v'.cap = v.cap := by
  have hvs : v.size = xs.length := hv.choose_spec.2.2
  obtain ⟨b, e1, e2⟩ := Nested.put_end hv (by omega) p
  exact ⟨_, by unfold arrPush; rw [if_pos (by omega), e1]; rfl, e2, rfl⟩

theorem pushPtr_ok (hcan : ∀ n, can n = true) (f : Nat) {v : EVec (Option Nat)} {xs : List (Option Nat)} (hv : Has v xs) (h : xs.length < v.cap)
    (p : Option Nat) : ∃ v', OwnVec.pushPtr can p (f + 2) v = .ok v' ∧ Has v' (xs ++ [p]) ∧ v'.cap = v.cap :=
  (OwnVec.push_leaves (s := ⟨v, 0, []⟩) hv hcan p f).1 v.cap (by unfold NestSpec.room; rw [if_pos h])

theorem pushPtr_any (hcan : ∀ n, can n = true) (f : Nat) {v : EVec (Option Nat)} {xs : List (Option Nat)} (hv : Has v xs) (h : 2 ≤ v.cap)
    (p : Option Nat) : ∃ v', OwnVec.pushPtr can p (f + 2) v = .ok v' ∧ Has v' (xs ++ [p]) ∧ 2 ≤ v'.cap := by
  by_cases hr : xs.length < v.cap
  · obtain ⟨v', a, b, d⟩ := pushPtr_ok hcan f hv hr p
    exact ⟨v', a, b, by omega⟩
  · obtain ⟨v', a, b, d⟩ := (OwnVec.push_leaves (s := ⟨v, 0, []⟩) hv hcan p f).1 (v.cap * 3 / 2)
      (by unfold NestSpec.room; rw [if_neg hr, if_neg (show ¬ v.cap = 0 by omega), if_neg (show ¬ v.cap = 1 by omega)])
    exact ⟨v', a, b, by omega⟩

/-- A way to append to a container with room. -/
def Appends (push : Option Nat → EVec (Option Nat) → Res (EVec (Option Nat))) : Prop :=
  ∀ (v : EVec (Option Nat)) (xs : List (Option Nat)), Has v xs → xs.length < v.cap → ∀ p, ∃ v', push p v = .ok v' ∧ Has v' (xs ++ [p]) ∧ v'.cap = v.cap

theorem moveInto_ok {push : Option Nat → EVec (Option Nat) → Res (EVec (Option Nat))} (hp : Appends push) (S : Slots (Option Nat)) :
    ∀ (ys : List (Option Nat)) (P : Slots (Option Nat)) (v : EVec (Option Nat)) (xs : List (Option Nat)), Has v xs → xs.length + ys.length ≤ v.cap →
      ∃ v', moveInto push ys.length P.length (P ++ (ys.map some ++ S)) v = .ok (P ++ ((ys.map (fun _ => none)).map some ++ S), v') ∧
        Has v' (xs ++ ys) ∧ v'.cap = v.cap := by
  intro ys
  induction ys with
  | nil => intro P v xs hv _; exact ⟨v, rfl, by simpa using hv, rfl⟩
  | cons y ys ih =>
    intro P v xs hv hc
    simp only [List.length_cons] at hc
    obtain ⟨v1, a, b, d⟩ := hp v xs hv (by omega) y
    obtain ⟨v', e1, e2, e3⟩ := ih (P ++ [some none]) v1 (xs ++ [y]) b (by simp; omega)
    refine ⟨v', ?_, by simpa using e2, by omega⟩
    simp only [List.length_cons, moveInto, List.map_cons, List.cons_append]
    rw [obj_mid P _ y _ rfl, Res.ok_bind, a, Res.ok_bind, put_mid P _ _ none _ rfl, Res.ok_bind]
    simpa using e1

theorem carry_ok {push : Option Nat → EVec (Option Nat) → Res (EVec (Option Nat))} (hp : Appends push) {src dst : EVec (Option Nat)}
    {xs : List (Option Nat)} (hs : Has src xs) (hd : Has dst []) (hc : xs.length ≤ dst.cap) {gone : List Nat} (hn : gone.Nodup) :
    ∃ v, carry push src.size src dst gone = .ok (v, gone) ∧ Has v xs ∧ v.cap = dst.cap := by
  obtain ⟨rest, a, b, d⟩ := hs
  obtain ⟨v, e1, e2, e3⟩ := moveInto_ok hp rest xs [] dst [] hd (by simpa using hc)
  simp only [List.nil_append, List.length_nil] at e1 e2
  have hob : objects (xs.map (fun _ => (none : Option Nat))) = [] := by
    unfold objects; rw [List.filterMap_map]; simp
  have e4 := OwnVec.destroy_ok (xs.map (fun _ => (none : Option Nat))) [] rest gone (by rw [hob]; exact hn)
  simp only [List.nil_append, List.length_nil, List.length_map, hob, List.append_nil] at e4
  refine ⟨v, ?_, e2, e3⟩
  unfold carry
  rw [d, a, e1, Res.ok_bind]
  simp only []
  rw [e4]; rfl

theorem useVector_ok (hcan : ∀ n, can n = true) (f : Nat) {a : EVec (Option Nat)} {xs : List (Option Nat)} (ha : Has a xs) (h0 : 0 < xs.length)
    {gone : List Nat} (hn : gone.Nodup) : ∃ v, useVector can (f + 2) a gone = .ok (v, gone) ∧ Has v xs ∧ v.cap = xs.length * 2 := by
  have hvs : a.size = xs.length := ha.choose_spec.2.2
  have he : Has (EVec.empty : EVec (Option Nat)) [] := ⟨[], rfl, rfl, rfl⟩
  have hr := he.reserve (can := can) (a.size * 2)
  have hcap : (reserve can (EVec.empty : EVec (Option Nat)) (a.size * 2)).cap = xs.length * 2 := by
    unfold reserve
    rw [if_pos (show (EVec.empty : EVec (Option Nat)).cap < a.size * 2 by show 0 < _; omega), if_pos (hcan _), hvs]
  obtain ⟨v, a1, a2, a3⟩ := carry_ok (push := fun p v => OwnVec.pushPtr can p (f + 2) v) (fun v xs hv h p => pushPtr_ok hcan f hv h p) ha hr
    (by rw [hcap]; omega) hn
  exact ⟨v, a1, a2, by rw [a3, hcap]⟩

theorem useArray_ok {N : Nat} {v : EVec (Option Nat)} {xs : List (Option Nat)} (hv : Has v xs) (hN : xs.length ≤ N) {gone : List Nat} (hn : gone.Nodup) :
    ∃ a, useArray N v gone = .ok (a, gone) ∧ Has a xs ∧ a.cap = N := by
  have hvs : v.size = xs.length := hv.choose_spec.2.2
  have hA : Appends arrPush := fun v xs hv h p => arrPush_ok hv h p
  obtain ⟨a1, b1, c1, d1⟩ := carry_ok hA hv (empty_has N) hN hn
  obtain ⟨a2, b2, c2, d2⟩ := carry_ok hA c1 (empty_has N) hN hn
  obtain ⟨a3, b3, c3, d3⟩ := carry_ok hA c2 (empty_has N) hN hn
  refine ⟨a3, ?_, c3, d3⟩
  unfold useArray
  rw [if_neg (by omega), b1, Res.ok_bind]
  simp only []
  rw [b2, Res.ok_bind]
  exact b3

theorem inv_gone {held : List (Option Nat)} {made : Nat} {gone : List Nat} (h : OwnVec.Inv held made gone) : gone.Nodup :=
  h.nodup.sublist (List.sublist_append_right _ _)

theorem pushArr_ok (hcan : ∀ n, can n = true) (f : Nat) {N : Nat} (hN : 0 < N) {a : EVec (Option Nat)} {held : List (Option Nat)} (ha : Has a held)
    (hc : a.cap = N) (p : Option Nat) {gone : List Nat} (hn : gone.Nodup) :
    ∃ h, pushArr can (f + 2) a p gone = .ok (h, gone) ∧ Holds N h (if held.length < N then .array else .vector) (held ++ [p]) := by
  have hvs : a.size = held.length := ha.choose_spec.2.2
  unfold pushArr
  by_cases hr : held.length < N
  · rw [if_pos hr, if_pos (by omega)]
    obtain ⟨v, e1, e2, e3⟩ := arrPush_ok ha (by omega) p
    rw [e1]
    exact ⟨.arr v, rfl, rfl, e2, by omega⟩
  · rw [if_neg hr, if_neg (by omega)]
    obtain ⟨v, e1, e2, e3⟩ := useVector_ok hcan f ha (by omega) hn
    obtain ⟨v', g1, g2, g3⟩ := pushPtr_any hcan f e2 (by omega) p
    rw [e1, Res.ok_bind]
    simp only []
    rw [g1]
    exact ⟨.vec v', rfl, rfl, g2, g3⟩

theorem push_ok (hcan : ∀ n, can n = true) (f : Nat) {N : Nat} (hN : 0 < N) {s : St} {w : Where} {held : List (Option Nat)} (hh : Holds N s.h w held)
    (hn : s.gone.Nodup) (p : Option Nat) : ∃ h, push can N (f + 2) s p = .ok (h, s.gone) ∧ Holds N h (afterAdding N held.length w) (held ++ [p]) := by
  obtain ⟨h, made, gone⟩ := s
  cases h with
  | unset =>
    obtain ⟨rfl, rfl⟩ := hh
    exact pushArr_ok hcan f hN (empty_has N) rfl p hn
  | arr a =>
    obtain ⟨rfl, h2, h3⟩ := hh
    exact pushArr_ok hcan f hN h2 h3 p hn
  | vec v =>
    obtain ⟨rfl, h2, h3⟩ := hh
    obtain ⟨v', g1, g2, g3⟩ := pushPtr_any hcan f h2 h3 p
    simp only [push]
    rw [g1]
    exact ⟨.vec v', rfl, rfl, g2, g3⟩

theorem shrink_arr {N : Nat} {s : OwnVec.St} {held : List (Option Nat)} (hv : Has s.v held) (hc : s.v.cap = N) (hI : OwnVec.Inv held s.made s.gone) :
    Leaves N (shrink N false s) (.back (if held.length = 0 then .nowhere else .array) held s.made s.gone) := by
  have hvs : s.v.size = held.length := hv.choose_spec.2.2
  simp only [shrink]
  by_cases h : held.length = 0
  · rw [if_pos h]
    have hz : s.v.size = 0 := by omega
    simp only [hz]
    exact ⟨_, rfl, ⟨rfl, List.eq_nil_of_length_eq_zero h⟩, rfl, rfl, hI⟩
  · rw [if_neg h]
    have hz : ¬ s.v.size = 0 := by omega
    simp only [hz]
    exact ⟨_, rfl, ⟨rfl, hv, hc⟩, rfl, rfl, hI⟩

theorem shrink_vec {N : Nat} {s : OwnVec.St} {held : List (Option Nat)} (hv : Has s.v held) (hc : 2 ≤ s.v.cap) (hI : OwnVec.Inv held s.made s.gone) :
    Leaves N (shrink N true s) (.back (if held.length < N then .array else .vector) held s.made s.gone) := by
  have hvs : s.v.size = held.length := hv.choose_spec.2.2
  unfold shrink
  rw [if_pos rfl]
  by_cases h : held.length < N
  · rw [if_pos h, if_pos (by omega)]
    obtain ⟨a, e1, e2, e3⟩ := useArray_ok hv (N := N) (by omega) (inv_gone hI)
    rw [e1]
    exact ⟨_, rfl, ⟨rfl, e2, e3⟩, rfl, rfl, hI⟩
  · rw [if_neg h, if_neg (by omega)]
    exact ⟨_, rfl, ⟨rfl, hv, hc⟩, rfl, rfl, hI⟩

theorem step_leaves (hcan : ∀ n, can n = true) (f : Nat) {N : Nat} (hN : 0 < N) {s : St} {w : Where} {held : List (Option Nat)} (hh : Holds N s.h w held)
    (hI : OwnVec.Inv held s.made s.gone) (o : Call) (ho : valid held o) :
    Leaves N (step can N (f + 2) s o) (call N w held s.made s.gone o) := by
  have new : Leaves N (do let r ← push can N (f + 2) s (some s.made); .ok ⟨r.1, s.made + 1, r.2⟩)
      (.back (afterAdding N held.length w) (held ++ [some s.made]) (s.made + 1) s.gone) := by
    obtain ⟨h', e1, e2⟩ := push_ok hcan f hN hh (inv_gone hI) (some s.made)
    rw [e1]
    exact ⟨_, rfl, e2, rfl, rfl, OwnVec.inv_new hI⟩
  cases o with
  | give => exact new
  | emplaceBack => exact new
  | giveNull =>
    obtain ⟨h', e1, e2⟩ := push_ok hcan f hN hh (inv_gone hI) none
    simp only [step, call]
    rw [e1]
    refine ⟨_, rfl, e2, rfl, rfl, ?_⟩
    unfold OwnVec.Inv at hI ⊢
    rw [OwnVec.objects_append, show objects [none] = [] from rfl, List.append_nil]; exact hI
  | pop =>
    obtain ⟨h, made, gone⟩ := s
    cases h with
    | unset =>
      obtain ⟨rfl, rfl⟩ := hh
      exact ⟨_, rfl, ⟨rfl, rfl⟩, rfl, by simp [objects], by simpa [objects] using hI⟩
    | arr a =>
      obtain ⟨rfl, h2, h3⟩ := hh
      obtain ⟨s', a1, a2, a3, a4, a5, a6⟩ := OwnVec.pop_leaves (s := ⟨a, made, gone⟩) h2 hI
      simp only [step]
      rw [a1]
      exact ⟨_, rfl, ⟨rfl, a2, a3.trans h3⟩, a4, a5, a6⟩
    | vec v =>
      obtain ⟨rfl, h2, h3⟩ := hh
      obtain ⟨s', a1, a2, a3, a4, a5, a6⟩ := OwnVec.pop_leaves (s := ⟨v, made, gone⟩) h2 hI
      simp only [step]
      rw [a1]
      exact ⟨_, rfl, ⟨rfl, a2, by rw [a3]; exact h3⟩, a4, a5, a6⟩
  | clean =>
    obtain ⟨h, made, gone⟩ := s
    cases h with
    | unset =>
      obtain ⟨rfl, rfl⟩ := hh
      exact ⟨_, rfl, ⟨rfl, empty_has N, rfl⟩, rfl, by simp [objects], by simpa [objects] using hI⟩
    | arr a =>
      obtain ⟨rfl, h2, h3⟩ := hh
      obtain ⟨s', a1, a2, a3, a4, a5, a6⟩ := OwnVec.clean_leaves (s := ⟨a, made, gone⟩) h2 hI
      simp only [step]
      rw [a1]
      exact ⟨_, rfl, ⟨rfl, empty_has N, rfl⟩, a4, a5, a6⟩
    | vec v =>
      obtain ⟨rfl, h2, h3⟩ := hh
      obtain ⟨s', a1, a2, a3, a4, a5, a6⟩ := OwnVec.clean_leaves (s := ⟨v, made, gone⟩) h2 hI
      simp only [step]
      rw [a1]
      exact ⟨_, rfl, ⟨rfl, empty_has N, rfl⟩, a4, a5, a6⟩
  | erase i =>
    obtain ⟨h, made, gone⟩ := s
    cases h with
    | unset =>
      obtain ⟨rfl, rfl⟩ := hh
      refine ⟨⟨.unset, made, gone⟩, rfl, ⟨rfl, by simp⟩, rfl, by simp [objects], by simpa [objects] using hI⟩
    | arr a =>
      obtain ⟨rfl, h2, h3⟩ := hh
      obtain ⟨s', a1, a2, a3, a4, a5, a6⟩ := OwnVec.step_leaves (s := ⟨a, made, gone⟩) h2 hI hcan f (.erase i) ho
      have a1' : OwnVec.erase ⟨a, made, gone⟩ i = .ok s' := a1
      simp only [step, call]
      rw [a1', Res.ok_bind, ← a5]
      have := shrink_arr (N := N) a2 (a3.trans h3) (by rw [a4, a5]; exact a6)
      rw [a4] at this
      exact this
    | vec v =>
      obtain ⟨rfl, h2, h3⟩ := hh
      obtain ⟨s', a1, a2, a3, a4, a5, a6⟩ := OwnVec.step_leaves (s := ⟨v, made, gone⟩) h2 hI hcan f (.erase i) ho
      have a1' : OwnVec.erase ⟨v, made, gone⟩ i = .ok s' := a1
      simp only [step, call]
      rw [a1', Res.ok_bind, ← a5]
      have := shrink_vec (N := N) a2 (by rw [a3]; exact h3) (by rw [a4, a5]; exact a6)
      rw [a4] at this
      exact this
  | eraseRange i j =>
    obtain ⟨h, made, gone⟩ := s
    have h12 : i ≤ j ∧ j ≤ held.length := ho
    cases h with
    | unset =>
      obtain ⟨rfl, rfl⟩ := hh
      have : i = j := by have := h12.2; simp at this; omega
      simp only [step, call]
      rw [if_pos this]
      exact ⟨_, rfl, ⟨rfl, rfl⟩, rfl, rfl, hI⟩
    | arr a =>
      obtain ⟨rfl, h2, h3⟩ := hh
      have hs := OwnArr.step_leaves (s := ⟨a, made, gone⟩) h2 hI (.eraseRange i j) ho
      simp only [OwnArr.step, OwnArrSpec.call] at hs
      simp only [step, call]
      by_cases hA : i = j
      · rw [if_pos hA] at hs ⊢
        obtain ⟨s', a1, a2, a3, rfl, rfl, a6⟩ := hs
        rw [a1, Res.ok_bind]
        exact shrink_arr a2 (a3.trans h3) a6
      · rw [if_neg hA] at hs ⊢
        by_cases hB : j = held.length
        · rw [if_pos hB] at hs ⊢
          obtain ⟨s', a1, a2, a3, a4, a5, a6⟩ := hs
          rw [a1, Res.ok_bind, ← a5]
          have := shrink_arr (N := N) a2 (a3.trans h3) (by rw [a4, a5]; exact a6)
          rw [a4, show (held.take i).length = i by simp; omega] at this
          exact this
        · rw [if_neg hB] at hs ⊢
          have hs' : OwnArr.eraseRange ⟨a, made, gone⟩ i j = .ub := hs
          rw [hs']; rfl
    | vec v =>
      obtain ⟨rfl, h2, h3⟩ := hh
      have hs := OwnVec.step_leaves (s := ⟨v, made, gone⟩) h2 hI hcan f (.eraseRange i j) ho
      simp only [OwnVec.step, OwnVecSpec.call] at hs
      simp only [step, call]
      by_cases hA : i = j
      · rw [if_pos hA] at hs ⊢
        obtain ⟨s', a1, a2, a3, rfl, rfl, a6⟩ := hs
        rw [a1, Res.ok_bind]
        exact shrink_vec a2 (by rw [a3]; exact h3) a6
      · rw [if_neg hA] at hs ⊢
        by_cases hB : j = held.length
        · rw [if_pos hB] at hs ⊢
          obtain ⟨s', a1, a2, a3, a4, a5, a6⟩ := hs
          rw [a1, Res.ok_bind, ← a5]
          have := shrink_vec (N := N) a2 (by rw [a3]; exact h3) (by rw [a4, a5]; exact a6)
          rw [a4, show (held.take i).length = i by simp; omega] at this
          exact this
        · rw [if_neg hB] at hs ⊢
          have hs' : OwnVec.eraseRange ⟨v, made, gone⟩ i j = .ub := hs
          rw [hs']; rfl

theorem run_leaves (hcan : ∀ n, can n = true) (f : Nat) {N : Nat} (hN : 0 < N) : ∀ (os : List Call) {s : St} {w : Where} {held : List (Option Nat)},
    Holds N s.h w held → OwnVec.Inv held s.made s.gone → ValidHist N w held s.made s.gone os →
      Leaves N (run can N (f + 2) s os) (hist N w held s.made s.gone os) := by
  intro os
  induction os with
  | nil => intro s w held hv hI _; exact ⟨s, rfl, hv, rfl, rfl, hI⟩
  | cons o os ih =>
    intro s w held hv hI hh
    have hstep := step_leaves hcan f hN hv hI o hh.1
    have hrest := hh.2
    unfold hist
    cases hc : call N w held s.made s.gone o with
    | back w h m g =>
      rw [hc] at hstep hrest
      obtain ⟨s', a, b, rfl, rfl, d⟩ := hstep
      rw [run, a, Res.ok_bind]
      exact ih b d hrest
    | undefined =>
      rw [hc] at hstep
      have : step can N (f + 2) s o = .ub := hstep
      show run can N (f + 2) s (o :: os) = .ub
      rw [run, this]; rfl

end Flame.OwnHyb

namespace Flame
open OwnHybSpec
variable {can : Nat → Bool}

/-- **C206, exactly.**  What every history of calls on a new hybrid vector of unique pointers does, if memory can be had: where the pointers are, which ones, the
objects made and the objects destroyed, in order (and by the destructor at the end), or that it is undefined (a range erased that is not the end). -/
theorem C206_history_exact {N : Nat} (hN : 0 < N) (hcan : ∀ n, can n = true) (f : Nat) (os : List Call) (hv : ValidHist N .nowhere [] 0 [] os) :
    OwnHyb.Seen (OwnHyb.run can N (f + 2) OwnHyb.init os) (hist N .nowhere [] 0 [] os) :=
  (OwnHyb.run_leaves hcan f hN os (s := OwnHyb.init) (w := .nowhere) (held := []) ⟨rfl, rfl⟩ (List.Perm.refl _) hv).seen

example := C206_history_exact (N := 2) (can := fun _ => true) (by decide) (fun _ => rfl) 0
  [.give, .emplaceBack, .give, .giveNull, .give, .erase 1, .pop, .erase 0, .erase 1, .give, .clean, .give] (by decide)
example : hist 2 .nowhere [] 0 [] [.give, .emplaceBack, .give, .giveNull, .give, .erase 1, .pop, .erase 0, .erase 1, .give] =
    .back .array [some 2, some 4] 5 [1, 3, 0] := by decide

/-- **C206, each object once.**  Whenever a history of valid calls comes back, every object made either is held and not destroyed or was destroyed exactly once,
however often the pointers changed their place; after the destructor every object made was destroyed exactly once. -/
theorem C206_destroyed_once_partial {N : Nat} (hN : 0 < N) (hcan : ∀ n, can n = true) (f : Nat) (os : List Call) (hv : ValidHist N .nowhere [] 0 [] os)
    {s : OwnHyb.St} (hr : OwnHyb.run can N (f + 2) OwnHyb.init os = .ok s) :
    ∃ w held g, OwnHyb.Shows s.h w held ∧ (∀ r, held.count (some r) + s.gone.count r = if r < s.made then 1 else 0) ∧
      OwnHyb.destruct s = .ok g ∧ ∀ r, g.count r = if r < s.made then 1 else 0 := by
  have h := OwnHyb.run_leaves hcan f hN os (s := OwnHyb.init) (w := .nowhere) (held := []) ⟨rfl, rfl⟩ (List.Perm.refl _) hv
  rw [hr] at h
  cases he : hist N .nowhere [] OwnHyb.init.made OwnHyb.init.gone os with
  | undefined => rw [he] at h; cases h
  | back w held m g =>
    rw [he] at h
    obtain ⟨s1, a, b, rfl, rfl, hI⟩ := h
    cases a
    have cnt : ∀ (l : List (Option Nat)) (r : Nat), (OwnVecSpec.objects l).count r = l.count (some r) := by
      intro l r
      induction l with
      | nil => rfl
      | cons p l ih =>
        cases p with
        | none => simp [OwnVecSpec.objects] at ih ⊢; exact ih
        | some q =>
          simp only [OwnVecSpec.objects, List.filterMap_cons, id] at ih ⊢
          rw [List.count_cons, List.count_cons, ih]; simp
    have rng : ∀ n r : Nat, (List.range n).count r = if r < n then 1 else 0 := by
      intro n r
      split
      · exact List.nodup_range.count.trans (by simp [*])
      · exact List.count_eq_zero.2 (by simp; omega)
    have key : ∀ r, held.count (some r) + s.gone.count r = if r < s.made then 1 else 0 := by
      intro r
      rw [← rng, ← List.Perm.count_eq hI r, List.count_append, cnt]
    refine ⟨w, held, _, b.shows, key, OwnHyb.destruct_ok b hI, fun r => ?_⟩
    rw [List.count_append, cnt, ← key r]; omega

example := C206_destroyed_once_partial (N := 1) (can := fun _ => true) (by decide) (fun _ => rfl) 0 [.give, .emplaceBack, .give, .erase 1, .pop, .erase 0]
  (by decide) rfl

end Flame
