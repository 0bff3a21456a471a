import Verif.Vector.Nested

/-!
# C203: a `Vector` of `UniquePointer`s

`UniquePointer` (Pointers.hpp 231-283, 463-583) cannot be copied, so of `Vector` only what moves compiles: `pushBack(&&)`, `emplaceBack`, `popBack`, `clean`,
`erase`, `reserve` (`insert(it, &&)` calls `insert(it, const &)` for a full vector, and `placementNew` with one argument, 785; it does not compile).

The specification keeps the capacity, the pointers held (an object's number in the order of making, or null), how many objects were made, and the objects
destroyed, oldest first.
-/

namespace Flame.OwnVecSpec

/-- The calls. -/
inductive Call where
  /-- a new pointer with a new object, moved in by `pushBack(move(p))`, and then destroyed -/
  | give
  /-- the same with `makeEmpty()` -/
  | giveNull
  /-- `emplaceBack(args...)` -/
  | emplace
  /-- `popBack()` -/
  | pop
  /-- `clean()` -/
  | clean
  /-- `erase(begin() + i)` -/
  | erase (i : Nat)
  /-- `erase(begin() + i, begin() + j)` -/
  | eraseRange (i j : Nat)
  /-- `reserve(n)` -/
  | reserve (n : Nat)
  deriving Repr

/-- How a history ends. -/
inductive End where
  | back (cap : Nat) (held : List (Option Nat)) (made : Nat) (gone : List Nat)
  | undefined
  | never
  deriving Repr, DecidableEq

/-- Positions lie inside the vector. -/
def valid (held : List (Option Nat)) : Call → Prop
  | .erase i => i ≤ held.length
  | .eraseRange i j => i ≤ j ∧ j ≤ held.length
  | _ => True

instance (held : List (Option Nat)) (o : Call) : Decidable (valid held o) := by cases o <;> unfold valid <;> infer_instance

/-- The objects some pointers hold. -/
def objects (held : List (Option Nat)) : List Nat := held.filterMap id

/-- The outcome of one call. -/
def call (cap : Nat) (held : List (Option Nat)) (made : Nat) (gone : List Nat) : Call → End
  | .give | .emplace => match NestSpec.room cap held.length with
    | some c => .back c (held ++ [some made]) (made + 1) gone
    | none => .never
  | .giveNull => match NestSpec.room cap held.length with
    | some c => .back c (held ++ [none]) made gone
    | none => .never
  | .pop => .back cap held.dropLast made (gone ++ objects (held.drop (held.length - 1)))
  | .clean => .back cap [] made (gone ++ objects held)
  | .erase i => .back cap (held.eraseIdx i) made (gone ++ objects ((held.drop i).take 1))
  | .eraseRange i j =>
    if i = j then .back cap held made gone
    else if j = held.length then .back cap (held.take i) made (gone ++ objects (held.drop i))
    else .undefined
  | .reserve n => .back (max cap n) held made gone

/-- The outcome of a history. -/
def hist (cap : Nat) (held : List (Option Nat)) (made : Nat) (gone : List Nat) : List Call → End
  | [] => .back cap held made gone
  | o :: os => match call cap held made gone o with
    | .back c h m g => hist c h m g os
    | e => e

/-- The caller respects the rules as long as the history goes on. -/
def ValidHist (cap : Nat) (held : List (Option Nat)) (made : Nat) (gone : List Nat) : List Call → Prop
  | [] => True
  | o :: os => valid held o ∧ match call cap held made gone o with
    | .back c h m g => ValidHist c h m g os
    | _ => True

instance decValidHist : (cap : Nat) → (held : List (Option Nat)) → (made : Nat) → (gone : List Nat) → (os : List Call) → Decidable (ValidHist cap held made gone os)
  | _, _, _, _, [] => isTrue trivial
  | cap, held, made, gone, o :: os => by
    unfold ValidHist
    have : Decidable (match call cap held made gone o with | .back c h m g => ValidHist c h m g os | _ => True) := by
      cases call cap held made gone o with
      | back c h m g => exact decValidHist c h m g os
      | undefined => exact isTrue trivial
      | never => exact isTrue trivial
    infer_instance

end Flame.OwnVecSpec

namespace Flame.OwnVec
open Flame ElemVec OwnVecSpec
open NestSpec (room)
variable {can : Nat → Bool}

/-- The vector, the number of objects made so far, and the objects destroyed so far. -/
structure St where
  v : EVec (Option Nat)
  made : Nat
  gone : List Nat

/-- Pointers.hpp 539-547 (`clean`), which the destructor (503-507) and the move assignment (490-501) call: destroys the object of a non-null pointer.  Destroying
an object twice is undefined. -/
def cleanPtr (p : Option Nat) (gone : List Nat) : Res (List Nat) :=
  match p with
  | none => .ok gone
  | some r => if r ∈ gone then .ub else .ok (gone ++ [r])

/-- `*dst = move(*src)` (Vector.hpp 893, 916) with the move assignment of Pointers.hpp 490-501: the target is cleaned, takes the source's pointer, the
source becomes null. -/
def slide (b : Slots (Option Nat)) (gone : List Nat) (dst src : Nat) : Res (Slots (Option Nat) × List Nat) := do
  let d ← obj b dst
  let s ← obj b src
  let gone ← cleanPtr d gone
  let b ← put b dst s
  let b ← put b src none
  .ok (b, gone)

/-- The loops of Vector.hpp 891-893 and 914-916. -/
def shiftDown : Nat → Nat → Nat → Slots (Option Nat) → List Nat → Res (Slots (Option Nat) × List Nat)
  | 0, _, _, b, gone => .ok (b, gone)
  | n + 1, src, dst, b, gone => do
    let r ← slide b gone dst src
    shiftDown n (src + 1) (dst + 1) r.1 r.2

/-- The destructor calls of Vector.hpp 610-613 and 908-910 (742 for one). -/
def destroy : Nat → Nat → Slots (Option Nat) → List Nat → Res (Slots (Option Nat) × List Nat)
  | 0, _, b, gone => .ok (b, gone)
  | n + 1, i, b, gone => do
    let p ← obj b i
    let gone ← cleanPtr p gone
    destroy n (i + 1) (b.set i none) gone

/-- Vector.hpp 713-723 (and 725-736): the new element is constructed from the pointer `p`: by move construction (Pointers.hpp 470-476), or from arguments. -/
def pushPtr (can : Nat → Bool) (p : Option Nat) : Nat → EVec (Option Nat) → Res (EVec (Option Nat))
  | 0, _ => .loop
  | f + 1, v =>
    if v.size ≠ v.cap then do
      let b ← put v.mem v.size p
      .ok ⟨b, v.cap, v.size + 1⟩
    else pushPtr can p f (reserve can v (nextCap v))

/-- Vector.hpp 738-743. -/
def popBack (s : St) : Res St :=
  if s.v.size ≠ 0 then do
    let r ← destroy 1 (s.v.size - 1) s.v.mem s.gone
    .ok ⟨⟨r.1, s.v.cap, s.v.size - 1⟩, s.made, r.2⟩
  else .ok s

/-- Vector.hpp 606-615. -/
def clean (s : St) : Res St := do
  let r ← destroy s.v.size 0 s.v.mem s.gone
  .ok ⟨⟨r.1, s.v.cap, 0⟩, s.made, r.2⟩

/-- Vector.hpp 880-896. -/
def erase (s : St) (i : Nat) : Res St :=
  if s.v.size < i then .ub
  else if i = s.v.size then .ok s
  else if i + 1 = s.v.size then popBack s
  else do
    let r ← shiftDown (s.v.size - (i + 1)) (i + 1) i s.v.mem s.gone
    .ok ⟨⟨r.1, s.v.cap, s.v.size - 1⟩, s.made, r.2⟩

/-- Vector.hpp 898-920. -/
def eraseRange (s : St) (b e : Nat) : Res St :=
  if s.v.size < b ∨ s.v.size < e then .ub
  else if e < b then .ok s
  else if e - b = s.v.size then clean s
  else if 0 < e - b then do
    let m ← destroy (e - b) b s.v.mem s.gone
    let m ← shiftDown (s.v.size - e) e b m.1 m.2
    .ok ⟨⟨m.1, s.v.cap, s.v.size - (e - b)⟩, s.made, m.2⟩
  else .ok s

/-- One call, as the code makes it.  The pointer moved in is null afterwards, and its destructor does nothing (Pointers.hpp 539-547). -/
def step (can : Nat → Bool) (f : Nat) (s : St) : Call → Res St
  | .give => do
    let v ← pushPtr can (some s.made) f s.v
    let gone ← cleanPtr none s.gone
    .ok ⟨v, s.made + 1, gone⟩
  | .giveNull => do
    let v ← pushPtr can none f s.v
    let gone ← cleanPtr none s.gone
    .ok ⟨v, s.made, gone⟩
  | .emplace => do
    let v ← pushPtr can (some s.made) f s.v
    .ok ⟨v, s.made + 1, s.gone⟩
  | .pop => popBack s
  | .clean => clean s
  | .erase i => erase s i
  | .eraseRange i j => eraseRange s i j
  | .reserve n => .ok ⟨reserve can s.v n, s.made, s.gone⟩

/-- A history. -/
def run (can : Nat → Bool) (f : Nat) (s : St) : List Call → Res St
  | [] => .ok s
  | o :: os => do
    let s ← step can f s o
    run can f s os

/-- A new vector (Vector.hpp 389-394). -/
def init : St := ⟨EVec.empty, 0, []⟩

/-- The code ends as the specification says. -/
def Seen (r : Res St) : End → Prop
  | .back c held m g => ∃ s, r = .ok s ∧ s.v.cap = c ∧ s.v.size = held.length ∧ elems s.v.mem 0 s.v.size = .ok held ∧ s.made = m ∧ s.gone = g
  | .undefined => r = .ub
  | .never => r = .loop

/-- Every object made is held by exactly one pointer of the vector or has been destroyed. -/
def Inv (held : List (Option Nat)) (made : Nat) (gone : List Nat) : Prop := List.Perm (objects held ++ gone) (List.range made)

def Leaves (r : Res St) : End → Prop
  | .back c held m g => ∃ s, r = .ok s ∧ Has s.v held ∧ s.v.cap = c ∧ s.made = m ∧ s.gone = g ∧ Inv held m g
  | .undefined => r = .ub
  | .never => r = .loop

theorem Leaves.seen {r : Res St} {e : End} (h : Leaves r e) : Seen r e := by
  cases e with
  | back c held m g =>
    obtain ⟨s, a, b, d, e1, e2, _⟩ := h
    exact ⟨s, a, d, b.choose_spec.2.2, b.elems, e1, e2⟩
  | undefined => exact h
  | never => exact h

theorem Inv.nodup {held : List (Option Nat)} {made : Nat} {gone : List Nat} (h : Inv held made gone) : (objects held ++ gone).Nodup :=
  (List.Perm.nodup_iff h).2 List.nodup_range

theorem cleanPtr_ok {p : Option Nat} {gone : List Nat} (h : (objects [p] ++ gone).Nodup) : cleanPtr p gone = .ok (gone ++ objects [p]) := by
  cases p with
  | none => simp [cleanPtr, objects]
  | some r =>
    have : r ∉ gone := by simpa [objects] using (List.nodup_cons.1 (by simpa [objects] using h)).1
    simp [cleanPtr, objects, this]

theorem objects_append (a b : List (Option Nat)) : objects (a ++ b) = objects a ++ objects b := by simp [objects]

theorem destroy_ok : ∀ (ys : List (Option Nat)) (P S : Slots (Option Nat)) (gone : List Nat), (objects ys ++ gone).Nodup →
    destroy ys.length P.length (P ++ (ys.map some ++ S)) gone = .ok (P ++ (List.replicate ys.length none ++ S), gone ++ objects ys) := by
  intro ys
  induction ys with
  | nil => intro P S gone _; simp [destroy, objects]
  | cons y ys ih =>
    intro P S gone h
    have hsplit : objects (y :: ys) = objects [y] ++ objects ys := objects_append [y] ys
    rw [hsplit] at h
    have hp : List.Perm (objects [y] ++ objects ys ++ gone) (objects ys ++ (gone ++ objects [y])) := by
      rw [List.append_assoc]
      refine List.perm_append_comm.trans ?_
      rw [List.append_assoc]
    have h1 : (objects [y] ++ gone).Nodup := by
      have : List.Sublist (objects [y] ++ gone) (objects [y] ++ objects ys ++ gone) := by
        rw [List.append_assoc]; exact List.Sublist.append_left (List.sublist_append_right _ _) _
      exact h.sublist this
    simp only [List.length_cons, destroy, List.map_cons, List.cons_append]
    rw [obj_mid P _ y _ rfl, Res.ok_bind, cleanPtr_ok h1, Res.ok_bind]
    have e1 : (P ++ some y :: (ys.map some ++ S)).set P.length none = (P ++ [none]) ++ (ys.map some ++ S) := by simp
    have e2 : P.length + 1 = (P ++ [(none : Option (Option Nat))]).length := by simp
    rw [e1, e2, ih (P ++ [none]) S _ ((List.Perm.nodup_iff hp).1 h), hsplit]
    simp [List.replicate_succ]

theorem slide_mid (P S : Slots (Option Nat)) (d x : Option Nat) {gone gone' : List Nat} (h : cleanPtr d gone = .ok gone') :
    slide (P ++ some d :: some x :: S) gone P.length (P.length + 1) = .ok (P ++ some x :: some none :: S, gone') := by
  have e : ∀ y w : Option (Option Nat), P ++ y :: w :: S = (P ++ [y]) ++ w :: S := by intro y w; simp
  unfold slide
  rw [obj_mid P _ d _ rfl, e, obj_mid (P ++ [some d]) S x _ (by simp)]
  simp only [Res.ok_bind, h]
  rw [← e, put_mid P _ _ x _ rfl]
  simp only [Res.ok_bind]
  rw [e, put_mid (P ++ [some x]) S _ _ _ (by simp), ← e]; rfl

theorem shiftDown_null : ∀ (ys : List (Option Nat)) (P S : Slots (Option Nat)) (gone : List Nat),
    shiftDown ys.length (P.length + 1) P.length (P ++ some none :: (ys.map some ++ S)) gone = .ok (P ++ (ys.map some ++ some none :: S), gone) := by
  intro ys
  induction ys with
  | nil => intro P S gone; simp [shiftDown]
  | cons y ys ih =>
    intro P S gone
    simp only [List.length_cons, shiftDown, List.map_cons, List.cons_append]
    rw [slide_mid P _ none y rfl, Res.ok_bind]
    have e1 : P ++ some y :: some none :: (ys.map some ++ S) = (P ++ [some y]) ++ some none :: (ys.map some ++ S) := by simp
    have e2 : P.length + 1 = (P ++ [some y]).length := by simp
    simp only []
    rw [e1, e2, ih]; simp

theorem shiftDown_ok (y : Option Nat) (ys : List (Option Nat)) (P S : Slots (Option Nat)) (d : Option Nat) {gone : List Nat}
    (h : (objects [d] ++ gone).Nodup) :
    shiftDown (ys.length + 1) (P.length + 1) P.length (P ++ some d :: some y :: (ys.map some ++ S)) gone =
      .ok (P ++ some y :: (ys.map some ++ some none :: S), gone ++ objects [d]) := by
  simp only [shiftDown]
  rw [slide_mid P _ d y (cleanPtr_ok h), Res.ok_bind]
  have e1 : P ++ some y :: some none :: (ys.map some ++ S) = (P ++ [some y]) ++ some none :: (ys.map some ++ S) := by simp
  have e2 : P.length + 1 = (P ++ [some y]).length := by simp
  simp only []
  rw [e1, e2, shiftDown_null]; simp

theorem push_leaves {s : St} {held : List (Option Nat)} (hv : Has s.v held) (hcan : ∀ n, can n = true) (p : Option Nat) (f : Nat) :
    (∀ c, room s.v.cap held.length = some c → ∃ v', pushPtr can p (f + 2) s.v = .ok v' ∧ Has v' (held ++ [p]) ∧ v'.cap = c) ∧
      (room s.v.cap held.length = none → pushPtr can p (f + 2) s.v = .loop) := by
  obtain ⟨A, B⟩ := Nested.grow_shape hcan (pushPtr can p) (fun v => (do let b ← put v.mem v.size p; .ok ⟨b, v.cap, v.size + 1⟩)) (fun _ => rfl) (fun _ _ => rfl)
    hv f
  refine ⟨fun c hc => ?_, B⟩
  obtain ⟨v', e, a, b, d⟩ := A c hc
  obtain ⟨m, e1, e2⟩ := Nested.put_end a b p
  exact ⟨⟨m, v'.cap, v'.size + 1⟩, by rw [e]; simp only [e1, Res.ok_bind], e2, d⟩

theorem destroy_tail {s : St} {held : List (Option Nat)} (hv : Has s.v held) {gone : List Nat} (hn : (objects held ++ gone).Nodup) {i : Nat}
    (hi : i ≤ held.length) : ∃ m, destroy (s.v.size - i) i s.v.mem gone = .ok (m, gone ++ objects (held.drop i)) ∧
      Has ⟨m, s.v.cap, i⟩ (held.take i) := by
  obtain ⟨rest, a, b, d⟩ := hv
  have hs : List.Sublist (objects (held.drop i) ++ gone) (objects held ++ gone) :=
    List.Sublist.append_right ((List.drop_sublist i held).filterMap id) _
  have e := destroy_ok (held.drop i) ((held.take i).map some) rest gone (hn.sublist hs)
  have e1 : s.v.mem = (held.take i).map some ++ ((held.drop i).map some ++ rest) := by
    rw [a, ← List.append_assoc, ← List.map_append, List.take_append_drop]
  have e2 : ((held.take i).map some).length = i := by simp; omega
  rw [e2, ← e1] at e
  refine ⟨(held.take i).map some ++ (List.replicate (held.drop i).length none ++ rest), ?_, ?_⟩
  · rw [← e, d]; simp
  · refine has_of (S := List.replicate (held.drop i).length none ++ rest) rfl ?_ (by simp; omega)
    rw [← b, a]; simp; omega

theorem inv_move {held held' : List (Option Nat)} {made : Nat} {gone x : List Nat} (h : Inv held made gone)
    (hp : List.Perm (objects held) (x ++ objects held')) : Inv held' made (gone ++ x) := by
  refine List.Perm.trans ?_ h
  refine List.Perm.trans ?_ (List.Perm.append_right gone hp.symm)
  have : List.Perm (gone ++ x) (x ++ gone) := List.perm_append_comm
  refine (List.Perm.append_left _ this).trans ?_
  rw [← List.append_assoc]
  exact List.Perm.append_right gone List.perm_append_comm

theorem inv_take {held : List (Option Nat)} {made : Nat} {gone : List Nat} (h : Inv held made gone) (i : Nat) :
    Inv (held.take i) made (gone ++ objects (held.drop i)) := by
  refine inv_move h ?_
  have : objects held = objects (held.take i) ++ objects (held.drop i) := by rw [← objects_append, List.take_append_drop]
  rw [this]; exact List.perm_append_comm

theorem inv_new {held : List (Option Nat)} {made : Nat} {gone : List Nat} (h : Inv held made gone) : Inv (held ++ [some made]) (made + 1) gone := by
  unfold Inv at *
  rw [objects_append, List.range_succ, List.append_assoc]
  show List.Perm (objects held ++ ([made] ++ gone)) _
  refine (List.Perm.append_left _ List.perm_append_comm).trans ?_
  rw [← List.append_assoc]
  exact List.Perm.append_right _ h

theorem pop_leaves {s : St} {held : List (Option Nat)} (hv : Has s.v held) (hI : Inv held s.made s.gone) :
    Leaves (popBack s) (.back s.v.cap held.dropLast s.made (s.gone ++ objects (held.drop (held.length - 1)))) := by
  have hvs : s.v.size = held.length := hv.choose_spec.2.2
  unfold popBack
  by_cases h : held.length = 0
  · have : held = [] := List.eq_nil_of_length_eq_zero h
    subst this
    rw [if_neg (by simpa using hvs)]
    exact ⟨s, rfl, hv, rfl, rfl, by simp [objects], by simpa [objects] using hI⟩
  · rw [if_pos (by omega)]
    obtain ⟨m, e, hm⟩ := destroy_tail hv hI.nodup (i := held.length - 1) (by omega)
    rw [show s.v.size - (held.length - 1) = 1 by omega] at e
    rw [hvs, e, Res.ok_bind, List.dropLast_eq_take]
    exact ⟨_, rfl, hm, rfl, rfl, rfl, inv_take hI _⟩

theorem clean_leaves {s : St} {held : List (Option Nat)} (hv : Has s.v held) (hI : Inv held s.made s.gone) :
    Leaves (clean s) (.back s.v.cap [] s.made (s.gone ++ objects held)) := by
  obtain ⟨m, e, hm⟩ := destroy_tail hv hI.nodup (i := 0) (by omega)
  simp only [Nat.sub_zero, List.drop_zero, List.take_zero] at e hm
  unfold clean
  rw [e, Res.ok_bind]
  exact ⟨_, rfl, hm, rfl, rfl, rfl, by simpa using inv_take hI 0⟩

theorem step_leaves {s : St} {held : List (Option Nat)} (hv : Has s.v held) (hI : Inv held s.made s.gone) (hcan : ∀ n, can n = true) (f : Nat) (o : Call)
    (ho : valid held o) : Leaves (step can (f + 2) s o) (call s.v.cap held s.made s.gone o) := by
  have hvs : s.v.size = held.length := hv.choose_spec.2.2
  cases o with
  | give =>
    obtain ⟨A, B⟩ := push_leaves hv hcan (some s.made) f
    simp only [step, call]
    cases hr : room s.v.cap held.length with
    | some c => obtain ⟨v', a, b, d⟩ := A c hr; rw [a]; exact ⟨_, rfl, b, d, rfl, rfl, inv_new hI⟩
    | none => rw [B hr]; rfl
  | emplace =>
    obtain ⟨A, B⟩ := push_leaves hv hcan (some s.made) f
    simp only [step, call]
    cases hr : room s.v.cap held.length with
    | some c => obtain ⟨v', a, b, d⟩ := A c hr; rw [a]; exact ⟨_, rfl, b, d, rfl, rfl, inv_new hI⟩
    | none => rw [B hr]; rfl
  | giveNull =>
    obtain ⟨A, B⟩ := push_leaves hv hcan none f
    simp only [step, call]
    cases hr : room s.v.cap held.length with
    | some c =>
      obtain ⟨v', a, b, d⟩ := A c hr
      rw [a]
      refine ⟨_, rfl, b, d, rfl, rfl, ?_⟩
      unfold Inv at hI ⊢; rw [objects_append, show objects [none] = [] from rfl, List.append_nil]; exact hI
    | none => rw [B hr]; rfl
  | pop => exact pop_leaves hv hI
  | clean => exact clean_leaves hv hI
  | erase i =>
    have hi : i ≤ held.length := ho
    simp only [step, call, erase]
    rw [if_neg (by omega)]
    by_cases h1 : i = held.length
    · rw [if_pos (by omega)]
      subst h1
      exact ⟨s, rfl, by simpa [List.eraseIdx_of_length_le] using hv, rfl, rfl, by simp [objects], by simpa [objects, List.eraseIdx_of_length_le] using hI⟩
    · rw [if_neg (by omega)]
      have hlt : i < held.length := by omega
      by_cases h2 : i + 1 = held.length
      · rw [if_pos (by omega)]
        have := pop_leaves hv hI
        have e1 : held.eraseIdx i = held.dropLast := by
          rw [List.eraseIdx_eq_take_drop_succ, h2, List.drop_length, List.append_nil, List.dropLast_eq_take]
          congr 1; omega
        have e2 : (held.drop i).take 1 = held.drop (held.length - 1) := by
          rw [show held.length - 1 = i by omega, List.take_of_length_le (by simp; omega)]
        rw [e1, e2]; exact this
      · rw [if_neg (by omega)]
        obtain ⟨rest, a, b, d⟩ := hv
        have hd1 : held.drop i = held[i] :: held.drop (i + 1) := List.drop_eq_getElem_cons hlt
        have hd2 : held.drop (i + 1) = held[i + 1] :: held.drop (i + 1 + 1) := List.drop_eq_getElem_cons (by omega)
        have hn : (objects [held[i]] ++ s.gone).Nodup := by
          refine hI.nodup.sublist (List.Sublist.append_right ?_ _)
          exact (List.singleton_sublist.2 (List.getElem_mem hlt)).filterMap id
        have e := shiftDown_ok held[i + 1] (held.drop (i + 1 + 1)) ((held.take i).map some) rest held[i] hn
        have e1 : s.v.mem = (held.take i).map some ++ some held[i] :: some held[i + 1] :: ((held.drop (i + 1 + 1)).map some ++ rest) := by
          rw [a]
          conv => lhs; rw [← List.take_append_drop i held]
          rw [hd1, hd2]; simp only [List.map_append, List.map_cons, List.append_assoc, List.cons_append]
        have e2 : ((held.take i).map some).length = i := by simp; omega
        rw [e2, ← e1] at e
        rw [show s.v.size - (i + 1) = (held.drop (i + 1 + 1)).length + 1 by simp; omega, e, Res.ok_bind]
        have e3 : (held.drop i).take 1 = [held[i]] := by rw [hd1]; rfl
        rw [e3]
        refine ⟨_, rfl, has_of (S := some none :: rest) ?_ ?_ ?_, rfl, rfl, rfl, inv_move hI ?_⟩
        · rw [List.eraseIdx_eq_take_drop_succ, hd2]; simp only [List.map_append, List.map_cons, List.append_assoc, List.cons_append]
        · rw [← b, a, List.length_eraseIdx_of_lt hlt]; simp; omega
        · rw [List.length_eraseIdx_of_lt hlt, hvs]
        · have : objects held = objects (held.take i) ++ (objects [held[i]] ++ objects (held.drop (i + 1))) := by
            rw [← objects_append, ← objects_append]
            rw [List.singleton_append, ← hd1, List.take_append_drop]
          rw [this, List.eraseIdx_eq_take_drop_succ, objects_append, ← List.append_assoc, ← List.append_assoc]
          exact List.Perm.append_right _ List.perm_append_comm
  | eraseRange i j =>
    obtain ⟨h1, h2⟩ : i ≤ j ∧ j ≤ held.length := ho
    simp only [step, call, eraseRange]
    rw [if_neg (by omega), if_neg (by omega)]
    by_cases h0 : i = j
    · rw [if_pos h0]
      by_cases he : held.length = 0
      · rw [if_pos (by omega)]
        have : held = [] := List.eq_nil_of_length_eq_zero he
        subst this
        simpa [objects] using clean_leaves hv hI
      · rw [if_neg (by omega), if_neg (by omega)]
        exact ⟨s, rfl, hv, rfl, rfl, rfl, hI⟩
    · rw [if_neg h0]
      by_cases hj : j = held.length
      · rw [if_pos hj]
        by_cases hz : i = 0
        · rw [if_pos (by omega)]
          subst hz
          exact clean_leaves hv hI
        · rw [if_neg (by omega), if_pos (by omega)]
          obtain ⟨m, e, hm⟩ := destroy_tail hv hI.nodup (i := i) (by omega)
          rw [show j - i = s.v.size - i by omega, e, Res.ok_bind, show s.v.size - j = 0 by omega]
          refine ⟨_, rfl, ?_, rfl, rfl, rfl, inv_take hI i⟩
          rw [show s.v.size - (s.v.size - i) = i by omega]; exact hm
      · rw [if_neg hj, if_neg (by omega), if_pos (by omega)]
        obtain ⟨rest, a, b, d⟩ := hv
        have hM : ((held.take j).drop i).length = j - i := by simp; omega
        have hs : List.Sublist (objects ((held.take j).drop i) ++ s.gone) (objects held ++ s.gone) :=
          List.Sublist.append_right (((List.drop_sublist _ _).trans (List.take_sublist _ _)).filterMap id) _
        have e := destroy_ok ((held.take j).drop i) ((held.take i).map some) ((held.drop j).map some ++ rest) s.gone (hI.nodup.sublist hs)
        have e1 : s.v.mem = (held.take i).map some ++ (((held.take j).drop i).map some ++ ((held.drop j).map some ++ rest)) := by
          rw [a]
          conv => lhs; rw [← List.take_append_drop j held, ← List.take_append_drop i (held.take j)]
          simp [List.take_take, Nat.min_eq_left h1]
        have e2 : ((held.take i).map some).length = i := by simp; omega
        rw [e2, ← e1, hM] at e
        rw [e, Res.ok_bind]
        obtain ⟨k, hk⟩ : ∃ k, s.v.size - j = k + 1 := ⟨s.v.size - j - 1, by omega⟩
        obtain ⟨l, hl⟩ : ∃ l, j - i = l + 1 := ⟨j - i - 1, by omega⟩
        rw [hk, hl]
        show (do let m ← shiftDown (k + 1) j i _ _; _) = Res.ub
        have hob : obj ((held.take i).map some ++ (List.replicate (l + 1) none ++ ((held.drop j).map some ++ rest))) i = .ub := by
          unfold obj
          rw [List.getElem?_append_right (by omega), e2]
          simp [List.replicate_succ]
        simp only [shiftDown, slide]
        rw [hob]; rfl
  | reserve n =>
    refine ⟨_, rfl, hv.reserve n, ?_, rfl, rfl, hI⟩
    show (ElemVec.reserve can s.v n).cap = _
    unfold ElemVec.reserve
    split
    · rw [if_pos (hcan _)]; show n = _; omega
    · omega

theorem run_leaves (hcan : ∀ n, can n = true) (f : Nat) : ∀ (os : List Call) {s : St} {held : List (Option Nat)}, Has s.v held → Inv held s.made s.gone →
    ValidHist s.v.cap held s.made s.gone os → Leaves (run can (f + 2) s os) (hist s.v.cap held s.made s.gone os) := by
  intro os
  induction os with
  | nil => intro s held hv hI _; exact ⟨s, rfl, hv, rfl, rfl, rfl, hI⟩
  | cons o os ih =>
    intro s held hv hI hh
    have hstep := step_leaves hv hI hcan f o hh.1
    have hrest := hh.2
    unfold hist
    cases hc : call s.v.cap held s.made s.gone o with
    | back c h m g =>
      rw [hc] at hstep hrest
      obtain ⟨s', a, b, rfl, rfl, rfl, d⟩ := hstep
      rw [run, a, Res.ok_bind]
      exact ih b d hrest
    | undefined =>
      rw [hc] at hstep
      have : step can (f + 2) s o = .ub := hstep
      show run can (f + 2) s (o :: os) = .ub
      rw [run, this]; rfl
    | never =>
      rw [hc] at hstep
      have : step can (f + 2) s o = .loop := hstep
      show run can (f + 2) s (o :: os) = .loop
      rw [run, this]; rfl

theorem counts {s : St} {held : List (Option Nat)} (hv : Has s.v held) (hI : Inv held s.made s.gone) :
    (∀ r, r < s.made → held.count (some r) + s.gone.count r = 1) ∧ (∀ r, s.made ≤ r → held.count (some r) = 0 ∧ s.gone.count r = 0) ∧
      ∃ s', clean s = .ok s' ∧ ∀ r, s'.gone.count r = if r < s.made then 1 else 0 := by
  have cnt : ∀ (l : List (Option Nat)) (r : Nat), (objects l).count r = l.count (some r) := by
    intro l r
    induction l with
    | nil => rfl
    | cons p l ih =>
      cases p with
      | none => simp [objects] at ih ⊢; exact ih
      | some q =>
        simp only [objects, List.filterMap_cons, id] at ih ⊢
        rw [List.count_cons, List.count_cons, ih]; simp
  have rng : ∀ n r : Nat, (List.range n).count r = if r < n then 1 else 0 := by
    intro n r
    split
    · exact List.nodup_range.count.trans (by simp [*])
    · exact List.count_eq_zero.2 (by simp; omega)
  have key : ∀ r, held.count (some r) + s.gone.count r = if r < s.made then 1 else 0 := by
    intro r
    rw [← rng, ← List.Perm.count_eq hI r, List.count_append, cnt]
  obtain ⟨s', x1, _, _, _, x5, _⟩ := clean_leaves hv hI
  refine ⟨fun r hr => by rw [key, if_pos hr], fun r hr => ?_, s', x1, fun r => ?_⟩
  · have := key r; rw [if_neg (by omega)] at this; omega
  · rw [x5, List.count_append, cnt, ← key r]; omega

end Flame.OwnVec

namespace Flame
open OwnVecSpec

/-- **C203, exactly.**  What every history of calls on a new vector of unique pointers does: the pointers held, the objects made and the objects destroyed, in
order; or that it is undefined (a range erased that is not the end), or that it never comes to an end (one place reserved and used up). -/
theorem C203_history_exact {can : Nat → Bool} (hcan : ∀ n, can n = true) (os : List Call) (hv : ValidHist 0 [] 0 [] os) (f : Nat) :
    OwnVec.Seen (OwnVec.run can (f + 2) OwnVec.init os) (hist 0 [] 0 [] os) :=
  (OwnVec.run_leaves hcan f os (s := OwnVec.init) (held := []) ⟨[], rfl, rfl, rfl⟩ (List.Perm.refl _) hv).seen

example := C203_history_exact (can := fun _ => true) (fun _ => rfl) [.give, .emplace, .giveNull, .give, .erase 1, .pop, .emplace, .eraseRange 1 3] (by decide) 0
example : hist 0 [] 0 [] [.give, .emplace, .giveNull, .give, .erase 1, .pop, .emplace, .eraseRange 1 3] = .back 8 [some 0] 4 [1, 2, 3] := by decide

/-- **C203, each object once.**  Whenever a history of valid calls comes back, every object made so far either is held by exactly one pointer and not destroyed,
or is held by none and was destroyed exactly once; and destroying the vector then destroys every object that is left exactly once. -/
theorem C203_destroyed_once_partial {can : Nat → Bool} (hcan : ∀ n, can n = true) (os : List Call) (hv : ValidHist 0 [] 0 [] os) (f : Nat) {s : OwnVec.St}
    (hr : OwnVec.run can (f + 2) OwnVec.init os = .ok s) :
    ∃ held, ElemVec.elems s.v.mem 0 s.v.size = .ok held ∧ (∀ r, r < s.made → held.count (some r) + s.gone.count r = 1) ∧
      (∀ r, s.made ≤ r → held.count (some r) = 0 ∧ s.gone.count r = 0) ∧
      ∃ s', OwnVec.clean s = .ok s' ∧ ∀ r, s'.gone.count r = if r < s.made then 1 else 0 := by
  have h := OwnVec.run_leaves hcan f os (s := OwnVec.init) (held := []) ⟨[], rfl, rfl, rfl⟩ (List.Perm.refl _) hv
  rw [hr] at h
  cases he : hist OwnVec.init.v.cap [] OwnVec.init.made OwnVec.init.gone os with
  | undefined => rw [he] at h; cases h
  | never => rw [he] at h; cases h
  | back c held m g =>
    rw [he] at h
    obtain ⟨s1, a, b, rfl, rfl, rfl, hI⟩ := h
    cases a
    obtain ⟨x, y, z⟩ := OwnVec.counts b hI
    exact ⟨held, b.elems, x, y, z⟩

example := C203_destroyed_once_partial (can := fun _ => true) (fun _ => rfl) [.give, .emplace, .giveNull, .give, .erase 1] (by decide) 0 rfl

/-- **C203 violated.**  Erasing a range of unique pointers that is neither empty nor the end of the vector is undefined: what follows is assigned to pointers
that are destroyed. -/
theorem C203_erase_range_ub {can : Nat → Bool} (hcan : ∀ n, can n = true) {n i j : Nat} (h1 : i < j) (h2 : j < n) (f : Nat) :
    OwnVec.run can (f + 2) OwnVec.init (List.replicate n .give ++ [.eraseRange i j]) = .ub := by
  have key : ∀ (k : Nat) {cap : Nat} (_ : cap ≠ 1) (held : List (Option Nat)) (made : Nat), j < held.length + k →
      ValidHist cap held made [] (List.replicate k .give ++ [.eraseRange i j]) ∧
        hist cap held made [] (List.replicate k .give ++ [.eraseRange i j]) = .undefined := by
    intro k
    induction k with
    | zero =>
      intro cap _ held made hj
      have : call cap held made [] (.eraseRange i j) = .undefined := by
        simp only [call]; rw [if_neg (by omega), if_neg (by omega)]
      refine ⟨⟨⟨by omega, by omega⟩, by rw [this]; trivial⟩, ?_⟩
      simp only [List.replicate_zero, List.nil_append, hist]; rw [this]
    | succ k ih =>
      intro cap hc held made hj
      obtain ⟨c', a, b⟩ := NestSpec.room_some hc held.length
      have hg : call cap held made [] .give = .back c' (held ++ [some made]) (made + 1) [] := by simp only [call]; rw [a]
      obtain ⟨x, y⟩ := ih b (held ++ [some made]) (made + 1) (by simp; omega)
      rw [List.replicate_succ, List.cons_append]
      refine ⟨⟨trivial, by rw [hg]; exact x⟩, ?_⟩
      unfold hist; rw [hg]; exact y
  obtain ⟨x, y⟩ := key n (cap := 0) (by decide) [] 0 (by simpa using h2)
  have := C203_history_exact hcan _ x f
  rw [y] at this
  exact this

example := C203_erase_range_ub (can := fun _ => true) (fun _ => rfl) (n := 4) (i := 1) (j := 3) (by decide) (by decide) 0

end Flame
