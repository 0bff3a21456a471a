import Verif.Vector.OwnVec

/-!
# C204: a fixed-capacity `Array` of `UniquePointer`s

Here `insert(it, &&)` and `emplace` compile, and make room by default constructing an element behind the last one (Array.hpp 845, 916).  A default constructed
`UniquePointer` has an object of its own (Pointers.hpp 463-468).
-/

namespace Flame.OwnArrSpec
open OwnVecSpec (objects)

/-- The calls. -/
inductive Call where
  /-- a new pointer with a new object, moved in by `pushBack(move(p))`, and then destroyed -/
  | give
  /-- the same with `makeEmpty()` -/
  | giveNull
  /-- `emplaceBack(args...)` -/
  | emplaceBack
  /-- a new pointer with a new object, moved in by `insert(begin() + i, move(p))`, and then destroyed -/
  | insert (i : Nat)
  /-- `emplace(begin() + i, args...)` -/
  | emplace (i : Nat)
  /-- `popBack()` -/
  | pop
  /-- `clean()` -/
  | clean
  /-- `erase(begin() + i)` -/
  | erase (i : Nat)
  /-- `erase(begin() + i, begin() + j)` -/
  | eraseRange (i j : Nat)
  deriving Repr

/-- How a history ends: the pointers held, how many objects were made, and the objects destroyed, oldest first. -/
inductive End where
  | back (held : List (Option Nat)) (made : Nat) (gone : List Nat)
  | undefined
  deriving Repr, DecidableEq

/-- Positions lie inside the array. -/
def valid (held : List (Option Nat)) : Call → Prop
  | .erase i | .insert i | .emplace i => i ≤ held.length
  | .eraseRange i j => i ≤ j ∧ j ≤ held.length
  | _ => True

instance (held : List (Option Nat)) (o : Call) : Decidable (valid held o) := by cases o <;> unfold valid <;> infer_instance

/-- The outcome of one call on an array with room for `cap`. -/
def call (cap : Nat) (held : List (Option Nat)) (made : Nat) (gone : List Nat) : Call → End
  | .give => if held.length < cap then .back (held ++ [some made]) (made + 1) gone else .back held (made + 1) (gone ++ [made])
  | .giveNull => if held.length < cap then .back (held ++ [none]) made gone else .back held made gone
  | .emplaceBack => if held.length < cap then .back (held ++ [some made]) (made + 1) gone else .back held made gone
  | .insert i =>
    if held.length < cap then
      if i = held.length then .back (held ++ [some made]) (made + 1) gone
      else .back (held.take i ++ some made :: held.drop i) (made + 2) (gone ++ [made + 1])
    else .back held (made + 1) (gone ++ [made])
  | .emplace i =>
    if held.length < cap then
      if i = held.length then .back (held ++ [some made]) (made + 1) gone
      else .back (held.take i ++ some (made + 1) :: held.drop i) (made + 2) (gone ++ [made])
    else .back held made gone
  | .pop => .back held.dropLast made (gone ++ objects (held.drop (held.length - 1)))
  | .clean => .back [] made (gone ++ objects held)
  | .erase i => .back (held.eraseIdx i) made (gone ++ objects ((held.drop i).take 1))
  | .eraseRange i j =>
    if i = j then .back held made gone
    else if j = held.length then .back (held.take i) made (gone ++ objects (held.drop i))
    else .undefined

/-- The outcome of a history. -/
def hist (cap : Nat) (held : List (Option Nat)) (made : Nat) (gone : List Nat) : List Call → End
  | [] => .back held made gone
  | o :: os => match call cap held made gone o with
    | .back h m g => hist cap h m g os
    | e => e

/-- The caller respects the rules as long as the history goes on. -/
def ValidHist (cap : Nat) (held : List (Option Nat)) (made : Nat) (gone : List Nat) : List Call → Prop
  | [] => True
  | o :: os => valid held o ∧ match call cap held made gone o with
    | .back h m g => ValidHist cap h m g os
    | _ => True

instance decValidHist (cap : Nat) : (held : List (Option Nat)) → (made : Nat) → (gone : List Nat) → (os : List Call) → Decidable (ValidHist cap held made gone os)
  | _, _, _, [] => isTrue trivial
  | held, made, gone, o :: os => by
    unfold ValidHist
    have : Decidable (match call cap held made gone o with | .back h m g => ValidHist cap h m g os | _ => True) := by
      cases call cap held made gone o with
      | back h m g => exact decValidHist cap h m g os
      | undefined => exact isTrue trivial
    infer_instance

end Flame.OwnArrSpec

namespace Flame.OwnArr
open Flame ElemVec OwnArrSpec
open OwnVec (St cleanPtr destroy)
open OwnVecSpec (objects)

/-- The backward loops of Array.hpp 847-851 and 918-922. -/
def shiftUp (pos : Nat) : Nat → Slots (Option Nat) → List Nat → Res (Slots (Option Nat) × List Nat)
  | 0, b, gone => .ok (b, gone)
  | n + 1, b, gone => do
    let r ← OwnVec.slide b gone (pos + n + 1) (pos + n)
    shiftUp pos n r.1 r.2

/-- Array.hpp 780-789 (and 791-797): the new element is constructed from the pointer `p`; the flag says whether there was room. -/
def push (s : St) (p : Option Nat) : Res (EVec (Option Nat) × Bool) :=
  if s.v.size < s.v.cap then do
    let b ← put s.v.mem s.v.size p
    .ok (⟨b, s.v.cap, s.v.size + 1⟩, true)
  else .ok (s.v, false)

/-- A pointer with the new object `s.made`, moved in by `pushBack(&&)` (Array.hpp 780-789), and destroyed afterwards (Pointers.hpp 503-507): its object with it,
if the array was full. -/
def give (s : St) : Res St := do
  let r ← push s (some s.made)
  let gone ← cleanPtr (if r.2 then none else some s.made) s.gone
  .ok ⟨r.1, s.made + 1, gone⟩

/-- Array.hpp 791-797: without room nothing is constructed. -/
def emplaceBack (s : St) : Res St := do
  let r ← push s (some s.made)
  .ok ⟨r.1, if r.2 then s.made + 1 else s.made, s.gone⟩

/-- Array.hpp 845-851 (916-922): a default constructed pointer, with the new object `x`, behind the last element, and everything from `i` on one up. -/
def opened (s : St) (i x : Nat) : Res (Slots (Option Nat) × List Nat) := do
  let b ← put s.v.mem s.v.size (some x)
  shiftUp i (s.v.size - i) b s.gone

/-- Array.hpp 833-857: `insert(it, &&)` with a pointer to the new object `s.made`, which is destroyed afterwards.  The default constructed pointer makes the
object `s.made + 1`. -/
def insert (s : St) (i : Nat) : Res St :=
  if s.v.size < i then .ub
  else if s.v.size < s.v.cap then
    if i = s.v.size then give s
    else do
      let r ← opened s i (s.made + 1)
      let d ← obj r.1 i
      let gone ← cleanPtr d r.2
      let b ← put r.1 i (some s.made)
      let gone ← cleanPtr none gone
      .ok ⟨⟨b, s.v.cap, s.v.size + 1⟩, s.made + 2, gone⟩
  else do
    let gone ← cleanPtr (some s.made) s.gone
    .ok ⟨s.v, s.made + 1, gone⟩

/-- Array.hpp 906-929: `emplace`: the default constructed pointer makes the object `s.made`, the pointer at `i` is destroyed (924) and a new one constructed
there. -/
def emplace (s : St) (i : Nat) : Res St :=
  if s.v.size < i then .ub
  else if s.v.size < s.v.cap then
    if i = s.v.size then emplaceBack s
    else do
      let r ← opened s i s.made
      let r ← destroy 1 i r.1 r.2
      let b ← put r.1 i (some (s.made + 1))
      .ok ⟨⟨b, s.v.cap, s.v.size + 1⟩, s.made + 2, r.2⟩
  else .ok s

/-- Array.hpp 949-969. -/
def eraseRange (s : St) (b e : Nat) : Res St :=
  if s.v.size < b ∨ s.v.size < e then .ub
  else if e = b + s.v.size then OwnVec.clean s
  else if e < b + s.v.size ∧ b < e then do
    let m ← destroy (e - b) b s.v.mem s.gone
    let m ← OwnVec.shiftDown (s.v.size - e) e b m.1 m.2
    .ok ⟨⟨m.1, s.v.cap, s.v.size - (e - b)⟩, s.made, m.2⟩
  else .ok s

/-- One call.  `popBack`, `clean` and `erase(it)` (Array.hpp 799-807, 677-683, 931-947) have the same statements as those of `Vector`. -/
def step (s : St) : Call → Res St
  | .give => give s
  | .giveNull => do
    let r ← push s none
    .ok ⟨r.1, s.made, s.gone⟩
  | .emplaceBack => emplaceBack s
  | .insert i => insert s i
  | .emplace i => emplace s i
  | .pop => OwnVec.popBack s
  | .clean => OwnVec.clean s
  | .erase i => OwnVec.erase s i
  | .eraseRange i j => eraseRange s i j

/-- A history. -/
def run (s : St) : List Call → Res St
  | [] => .ok s
  | o :: os => do
    let s ← step s o
    run s os

/-- A new array for `n` elements (Array.hpp 434-438). -/
def init (n : Nat) : St := ⟨⟨List.replicate n none, n, 0⟩, 0, []⟩

/-- The code ends as the specification says. -/
def Seen (cap : Nat) (r : Res St) : End → Prop
  | .back held m g => ∃ s, r = .ok s ∧ s.v.cap = cap ∧ s.v.size = held.length ∧ elems s.v.mem 0 s.v.size = .ok held ∧ s.made = m ∧ s.gone = g
  | .undefined => r = .ub

def Leaves (cap : Nat) (r : Res St) : End → Prop
  | .back held m g => ∃ s, r = .ok s ∧ Has s.v held ∧ s.v.cap = cap ∧ s.made = m ∧ s.gone = g ∧ OwnVec.Inv held m g
  | .undefined => r = .ub

theorem Leaves.seen {cap : Nat} {r : Res St} {e : End} (h : Leaves cap r e) : Seen cap r e := by
  cases e with
  | back held m g =>
    obtain ⟨s, a, b, d, e1, e2, _⟩ := h
    exact ⟨s, a, d, b.choose_spec.2.2, b.elems, e1, e2⟩
  | undefined => exact h

theorem slide_up (P S : Slots (Option Nat)) (d x : Option Nat) {gone gone' : List Nat} (h : cleanPtr d gone = .ok gone') :
    OwnVec.slide (P ++ some x :: some d :: S) gone (P.length + 1) P.length = .ok (P ++ some none :: some x :: S, gone') := by
  have e : ∀ y w : Option (Option Nat), P ++ y :: w :: S = (P ++ [y]) ++ w :: S := by intro y w; simp
  unfold OwnVec.slide
  rw [obj_mid P _ x _ rfl, e, obj_mid (P ++ [some x]) S d _ (by simp)]
  simp only [Res.ok_bind, h]
  rw [put_mid (P ++ [some x]) S _ _ _ (by simp)]
  simp only [Res.ok_bind]
  rw [← e, put_mid P _ _ none _ rfl]; rfl

theorem shiftUp_null (P : Slots (Option Nat)) : ∀ (n : Nat) (ys : List (Option Nat)) (S : Slots (Option Nat)) (gone : List Nat), ys.length = n →
    shiftUp P.length n (P ++ (ys.map some ++ some none :: S)) gone = .ok (P ++ some none :: (ys.map some ++ S), gone) := by
  intro n
  induction n with
  | zero => intro ys S gone h; have := List.eq_nil_of_length_eq_zero h; subst this; simp [shiftUp]
  | succ n ih =>
    intro ys S gone h
    rcases List.eq_nil_or_concat ys with rfl | ⟨zs, x, rfl⟩
    · simp at h
    · rw [List.concat_eq_append] at *
      have hz : zs.length = n := by simpa using h
      have e1 : P ++ ((zs ++ [x]).map some ++ some none :: S) = (P ++ zs.map some) ++ some x :: some none :: S := by simp
      have e2 : P.length + n = (P ++ zs.map some).length := by simp [hz]
      simp only [shiftUp]
      rw [e1, e2, slide_up (P ++ zs.map some) S none x rfl, Res.ok_bind]
      have e3 : (P ++ zs.map some) ++ some none :: some x :: S = P ++ (zs.map some ++ some none :: (some x :: S)) := by simp
      simp only []
      rw [e3, ih zs (some x :: S) gone hz]; simp

theorem shiftUp_ok (P : Slots (Option Nat)) (ys : List (Option Nat)) (hy : ys ≠ []) (S : Slots (Option Nat)) (d : Option Nat) {gone gone' : List Nat}
    (hd : cleanPtr d gone = .ok gone') :
    shiftUp P.length ys.length (P ++ (ys.map some ++ some d :: S)) gone = .ok (P ++ some none :: (ys.map some ++ S), gone') := by
  rcases List.eq_nil_or_concat ys with rfl | ⟨zs, x, rfl⟩
  · exact absurd rfl hy
  · rw [List.concat_eq_append] at *
    have e0 : (zs ++ [x]).length = zs.length + 1 := by simp
    have e1 : P ++ ((zs ++ [x]).map some ++ some d :: S) = (P ++ zs.map some) ++ some x :: some d :: S := by simp
    have e2 : P.length + zs.length = (P ++ zs.map some).length := by simp
    rw [e0]
    simp only [shiftUp]
    rw [e1, e2, slide_up (P ++ zs.map some) S d x hd, Res.ok_bind]
    have e3 : (P ++ zs.map some) ++ some none :: some x :: S = P ++ (zs.map some ++ some none :: (some x :: S)) := by simp
    simp only []
    rw [e3, shiftUp_null P _ zs (some x :: S) gone' rfl]; simp

theorem fresh_clean {held : List (Option Nat)} {made x : Nat} {gone : List Nat} (hI : OwnVec.Inv held made gone) (hx : made ≤ x) :
    cleanPtr (some x) gone = .ok (gone ++ [x]) := by
  have : x ∉ gone := by
    intro h
    have := (List.Perm.mem_iff hI).1 (List.mem_append.2 (Or.inr h))
    simp at this; omega
  simp [cleanPtr, this]

theorem inv_lost {held : List (Option Nat)} {made : Nat} {gone : List Nat} (h : OwnVec.Inv held made gone) : OwnVec.Inv held (made + 1) (gone ++ [made]) := by
  unfold OwnVec.Inv at *
  rw [List.range_succ, ← List.append_assoc]
  exact List.Perm.append_right _ h

theorem inv_insert {held : List (Option Nat)} {made : Nat} {gone : List Nat} (h : OwnVec.Inv held made gone) (i : Nat) :
    OwnVec.Inv (held.take i ++ some made :: held.drop i) (made + 1) gone := by
  have hn := OwnVec.inv_new h
  unfold OwnVec.Inv at *
  refine List.Perm.trans (List.Perm.append_right gone ?_) hn
  refine List.Perm.filterMap id ?_
  conv => rhs; rw [← List.take_append_drop i held, List.append_assoc]
  exact List.Perm.append_left _ (List.perm_append_comm (l₁ := [some made]) (l₂ := held.drop i))

theorem opened_ok {s : St} {held : List (Option Nat)} (hv : Has s.v held) (hI : OwnVec.Inv held s.made s.gone) {i : Nat} (hi : i < held.length)
    (hr : s.v.size < s.v.cap) {x : Nat} (hx : s.made ≤ x) : ∃ S, opened s i x =
      .ok ((held.take i).map some ++ some none :: ((held.drop i).map some ++ S), s.gone ++ [x]) ∧ held.length + 1 + S.length = s.v.cap := by
  obtain ⟨b, e1, ⟨S, m1, m2, m3⟩⟩ := Nested.put_end hv hr (some x)
  have hvs : s.v.size = held.length := hv.choose_spec.2.2
  refine ⟨S, ?_, ?_⟩
  · unfold opened
    rw [e1, Res.ok_bind]
    have hm : b = (held.take i).map some ++ ((held.drop i).map some ++ some (some x) :: S) := by
      show (⟨b, s.v.cap, s.v.size + 1⟩ : EVec (Option Nat)).mem = _
      rw [m1]
      conv => lhs; rw [← List.take_append_drop i held]
      simp only [List.map_append, List.map_cons, List.map_nil, List.append_assoc, List.cons_append, List.nil_append]
    have e2 : ((held.take i).map some).length = i := by simp; omega
    have e3 : s.v.size - i = (held.drop i).length := by simp; omega
    have := shiftUp_ok ((held.take i).map some) (held.drop i) (by intro h; have := congrArg List.length h; simp at this; omega) S (some x)
      (fresh_clean hI hx)
    rw [e2] at this
    rw [hm, e3, this]
  · have : b.length = s.v.cap := m2
    have h1 : b = (held ++ [some x]).map some ++ S := m1
    rw [← this, h1]; simp; omega

theorem give_leaves {s : St} {held : List (Option Nat)} (hv : Has s.v held) (hI : OwnVec.Inv held s.made s.gone) :
    Leaves s.v.cap (give s) (if held.length < s.v.cap then .back (held ++ [some s.made]) (s.made + 1) s.gone
      else .back held (s.made + 1) (s.gone ++ [s.made])) := by
  have hvs : s.v.size = held.length := hv.choose_spec.2.2
  unfold give push
  by_cases hr : held.length < s.v.cap
  · obtain ⟨b, e1, e2⟩ := Nested.put_end hv (by omega) (some s.made)
    rw [if_pos hr, if_pos (by omega), e1]
    exact ⟨_, rfl, e2, rfl, rfl, rfl, OwnVec.inv_new hI⟩
  · rw [if_neg hr, if_neg (by omega), Res.ok_bind]
    show Leaves _ (do let gone ← cleanPtr (some s.made) s.gone; _) _
    rw [fresh_clean hI (Nat.le_refl _), Res.ok_bind]
    exact ⟨_, rfl, hv, rfl, rfl, rfl, inv_lost hI⟩

theorem emplaceBack_leaves {s : St} {held : List (Option Nat)} (hv : Has s.v held) (hI : OwnVec.Inv held s.made s.gone) :
    Leaves s.v.cap (emplaceBack s) (if held.length < s.v.cap then .back (held ++ [some s.made]) (s.made + 1) s.gone
      else .back held s.made s.gone) := by
  have hvs : s.v.size = held.length := hv.choose_spec.2.2
  unfold emplaceBack push
  by_cases hr : held.length < s.v.cap
  · obtain ⟨b, e1, e2⟩ := Nested.put_end hv (by omega) (some s.made)
    rw [if_pos hr, if_pos (by omega), e1]
    exact ⟨_, rfl, e2, rfl, rfl, rfl, OwnVec.inv_new hI⟩
  · rw [if_neg hr, if_neg (by omega)]
    exact ⟨_, rfl, hv, rfl, rfl, rfl, hI⟩

/-- What `Vector` does with these calls carries over. -/
theorem of_vector {s : St} {r : Res St} {e : OwnVecSpec.End} (h : OwnVec.Leaves r e) :
    match e with
    | .back c held m g => Leaves c r (.back held m g)
    | .undefined => Leaves s.v.cap r .undefined
    | .never => True := by
  cases e with
  | back c held m g => exact h
  | undefined => exact h
  | never => trivial

theorem step_leaves {s : St} {held : List (Option Nat)} (hv : Has s.v held) (hI : OwnVec.Inv held s.made s.gone) (o : Call) (ho : valid held o) :
    Leaves s.v.cap (step s o) (call s.v.cap held s.made s.gone o) := by
  have hvs : s.v.size = held.length := hv.choose_spec.2.2
  have hcan : ∀ n : Nat, (fun _ => true) n = true := fun _ => rfl
  cases o with
  | give => exact give_leaves hv hI
  | emplaceBack => exact emplaceBack_leaves hv hI
  | giveNull =>
    simp only [step, call, push]
    by_cases hr : held.length < s.v.cap
    · obtain ⟨b, e1, e2⟩ := Nested.put_end hv (by omega) (none : Option Nat)
      rw [if_pos hr, if_pos (by omega), e1]
      refine ⟨_, rfl, e2, rfl, rfl, rfl, ?_⟩
      unfold OwnVec.Inv at hI ⊢
      rw [OwnVec.objects_append, show objects [none] = [] from rfl, List.append_nil]; exact hI
    · rw [if_neg hr, if_neg (by omega)]
      exact ⟨_, rfl, hv, rfl, rfl, rfl, hI⟩
  | insert i =>
    have hi : i ≤ held.length := ho
    simp only [step, call, insert]
    rw [if_neg (by omega)]
    by_cases hr : held.length < s.v.cap
    · rw [if_pos hr, if_pos (by omega)]
      by_cases he : i = held.length
      · rw [if_pos he, if_pos (by omega)]
        have := give_leaves hv hI
        rwa [if_pos hr] at this
      · rw [if_neg he, if_neg (by omega)]
        obtain ⟨S, e, hS⟩ := opened_ok hv hI (i := i) (by omega) (by omega) (x := s.made + 1) (by omega)
        have e2 : i = ((held.take i).map some).length := by simp; omega
        rw [e, Res.ok_bind]
        simp only []
        rw [obj_mid ((held.take i).map some) _ none _ e2, Res.ok_bind]
        show Leaves _ (do let b ← put _ i (some s.made); _) _
        rw [put_mid ((held.take i).map some) _ _ (some s.made) _ e2, Res.ok_bind]
        refine ⟨_, rfl, has_of (S := S) ?_ ?_ ?_, rfl, rfl, rfl, inv_lost (inv_insert hI i)⟩
        · simp only [List.map_append, List.map_cons, List.append_assoc, List.cons_append]
        · simp; omega
        · simp; omega
    · rw [if_neg hr, if_neg (by omega), fresh_clean hI (Nat.le_refl _), Res.ok_bind]
      exact ⟨_, rfl, hv, rfl, rfl, rfl, inv_lost hI⟩
  | emplace i =>
    have hi : i ≤ held.length := ho
    simp only [step, call, emplace]
    rw [if_neg (by omega)]
    by_cases hr : held.length < s.v.cap
    · rw [if_pos hr, if_pos (by omega)]
      by_cases he : i = held.length
      · rw [if_pos he, if_pos (by omega)]
        have := emplaceBack_leaves hv hI
        rwa [if_pos hr] at this
      · rw [if_neg he, if_neg (by omega)]
        obtain ⟨S, e, hS⟩ := opened_ok hv hI (i := i) (by omega) (by omega) (x := s.made) (by omega)
        have e2 : i = ((held.take i).map some).length := by simp; omega
        rw [e, Res.ok_bind]
        have ed := OwnVec.destroy_ok [none] ((held.take i).map some) ((held.drop i).map some ++ S) (s.gone ++ [s.made])
          (by
            have := (inv_lost hI).nodup
            exact this.sublist (List.Sublist.append_right (List.nil_sublist _) _))
        rw [← e2] at ed
        have ed' : destroy 1 i ((held.take i).map some ++ some none :: ((held.drop i).map some ++ S)) (s.gone ++ [s.made]) =
            .ok ((held.take i).map some ++ none :: ((held.drop i).map some ++ S), s.gone ++ [s.made]) := by
          simpa [objects] using ed
        simp only []
        rw [ed', Res.ok_bind]
        simp only []
        rw [put_mid ((held.take i).map some) _ _ (some (s.made + 1)) _ e2, Res.ok_bind]
        refine ⟨_, rfl, has_of (S := S) ?_ ?_ ?_, rfl, rfl, rfl, inv_insert (inv_lost hI) i⟩
        · simp only [List.map_append, List.map_cons, List.append_assoc, List.cons_append]
        · simp; omega
        · simp; omega
    · rw [if_neg hr, if_neg (by omega)]
      exact ⟨_, rfl, hv, rfl, rfl, rfl, hI⟩
  | pop => exact of_vector (s := s) (OwnVec.step_leaves hv hI hcan 0 .pop trivial)
  | clean => exact of_vector (s := s) (OwnVec.step_leaves hv hI hcan 0 .clean trivial)
  | erase i => exact of_vector (s := s) (OwnVec.step_leaves hv hI hcan 0 (.erase i) ho)
  | eraseRange i j =>
    obtain ⟨h1, h2⟩ : i ≤ j ∧ j ≤ held.length := ho
    have hsame : eraseRange s i j = OwnVec.eraseRange s i j := by
      have h0 : ¬ (s.v.size < i ∨ s.v.size < j) := by omega
      have h3 : ¬ j < i := by omega
      unfold eraseRange OwnVec.eraseRange
      rw [if_neg h0, if_neg h0, if_neg h3]
      by_cases hA : j - i = s.v.size
      · have hA' : j = i + s.v.size := by omega
        rw [if_pos hA, if_pos hA']
      · have hA' : ¬ j = i + s.v.size := by omega
        rw [if_neg hA, if_neg hA']
        by_cases hB : i < j
        · have h4 : j < i + s.v.size ∧ i < j := ⟨by omega, hB⟩
          have h5 : 0 < j - i := by omega
          rw [if_pos h4, if_pos h5]
        · have h4 : ¬ (j < i + s.v.size ∧ i < j) := fun h => hB h.2
          have h5 : ¬ 0 < j - i := by omega
          rw [if_neg h4, if_neg h5]
    have := OwnVec.step_leaves (can := fun _ => true) hv hI hcan 0 (.eraseRange i j) ⟨h1, h2⟩
    simp only [step, call]
    rw [hsame]
    simp only [OwnVec.step, OwnVecSpec.call] at this
    by_cases hA : i = j
    · rw [if_pos hA] at this ⊢; exact this
    · rw [if_neg hA] at this ⊢
      by_cases hB : j = held.length
      · rw [if_pos hB] at this ⊢; exact this
      · rw [if_neg hB] at this ⊢; exact this

theorem run_leaves : ∀ (os : List Call) {s : St} {held : List (Option Nat)}, Has s.v held → OwnVec.Inv held s.made s.gone →
    ValidHist s.v.cap held s.made s.gone os → Leaves s.v.cap (run s os) (hist s.v.cap held s.made s.gone os) := by
  intro os
  induction os with
  | nil => intro s held hv hI _; exact ⟨s, rfl, hv, rfl, rfl, rfl, hI⟩
  | cons o os ih =>
    intro s held hv hI hh
    have hstep := step_leaves hv hI o hh.1
    have hrest := hh.2
    unfold hist
    cases hc : call s.v.cap held s.made s.gone o with
    | back h m g =>
      rw [hc] at hstep hrest
      obtain ⟨s', a, b, hcap, rfl, rfl, d⟩ := hstep
      rw [run, a, Res.ok_bind]
      rw [← hcap] at hrest ⊢
      exact ih b d hrest
    | undefined =>
      rw [hc] at hstep
      have : step s o = .ub := hstep
      show run s (o :: os) = .ub
      rw [run, this]; rfl

theorem init_has (n : Nat) : Has (init n).v [] := ⟨List.replicate n none, rfl, by simp [init], rfl⟩

end Flame.OwnArr

namespace Flame
open OwnArrSpec

/-- **C204, exactly.**  What every history of calls on a new fixed-capacity array of unique pointers does: the pointers held, the objects made and the objects
destroyed, in order, or that it is undefined (a range erased that is not the end). -/
theorem C204_history_exact (n : Nat) (os : List Call) (hv : ValidHist n [] 0 [] os) : OwnArr.Seen n (OwnArr.run (OwnArr.init n) os) (hist n [] 0 [] os) :=
  (OwnArr.run_leaves os (s := OwnArr.init n) (held := []) (OwnArr.init_has n) (List.Perm.refl _) hv).seen

example := C204_history_exact 3 [.give, .insert 0, .emplace 1, .give, .erase 0, .giveNull, .pop, .insert 1] (by decide)
example : hist 3 [] 0 [] [.give, .insert 0, .emplace 1, .give, .erase 0, .giveNull, .pop, .insert 1] = .back [some 4, some 6, some 0] 8 [2, 3, 5, 1, 7] := by decide

/-- **C204, each object once.**  Whenever a history of valid calls comes back, every object made so far either is held by exactly one pointer and not destroyed,
or is held by none and was destroyed exactly once; destroying the array (Array.hpp 502-507, the loop of `clean`) then destroys every object that is left. -/
theorem C204_destroyed_once_partial (n : Nat) (os : List Call) (hv : ValidHist n [] 0 [] os) {s : OwnVec.St} (hr : OwnArr.run (OwnArr.init n) os = .ok s) :
    ∃ held, ElemVec.elems s.v.mem 0 s.v.size = .ok held ∧ held.length ≤ n ∧ (∀ r, r < s.made → held.count (some r) + s.gone.count r = 1) ∧
      (∀ r, s.made ≤ r → held.count (some r) = 0 ∧ s.gone.count r = 0) ∧
      ∃ s', OwnVec.clean s = .ok s' ∧ ∀ r, s'.gone.count r = if r < s.made then 1 else 0 := by
  have h := OwnArr.run_leaves os (s := OwnArr.init n) (held := []) (OwnArr.init_has n) (List.Perm.refl _) hv
  rw [hr] at h
  cases he : hist (OwnArr.init n).v.cap [] (OwnArr.init n).made (OwnArr.init n).gone os with
  | undefined => rw [he] at h; cases h
  | back held m g =>
    rw [he] at h
    obtain ⟨s1, a, b, hcap, rfl, rfl, hI⟩ := h
    cases a
    obtain ⟨x, y, z⟩ := OwnVec.counts b hI
    have hlen : held.length ≤ n := by
      have h1 := b.le
      have h2 := b.choose_spec.2.2
      have h3 : s.v.cap = n := hcap
      omega
    exact ⟨held, b.elems, hlen, x, y, z⟩

example := C204_destroyed_once_partial 3 [.give, .insert 0, .emplace 1, .give, .erase 0] (by decide) rfl

/-- **C204 violated.**  Inserting or emplacing anywhere but at the end makes and destroys one object that nobody asked for. -/
theorem C204_extra_object {n k i : Nat} (hk : k < n) (hi : i < k) :
    (∃ s, OwnArr.run (OwnArr.init n) (List.replicate k .give ++ [.insert i]) = .ok s ∧ s.made = k + 2 ∧ s.gone = [k + 1] ∧ s.v.size = k + 1) ∧
    (∃ s, OwnArr.run (OwnArr.init n) (List.replicate k .give ++ [.emplace i]) = .ok s ∧ s.made = k + 2 ∧ s.gone = [k] ∧ s.v.size = k + 1) := by
  have key : ∀ (o : Call) (m : Nat) (held : List (Option Nat)) (made : Nat), held.length + m = k → made + m = k →
      (∀ h : List (Option Nat), h.length = k → valid h o ∧ ∃ h', call n h k [] o = .back h' (k + 2) (if o matches .insert _ then [k + 1] else [k]) ∧ h'.length = k + 1) →
      ValidHist n held made [] (List.replicate m .give ++ [o]) ∧ ∃ h', h'.length = k + 1 ∧
        hist n held made [] (List.replicate m .give ++ [o]) = .back h' (k + 2) (if o matches .insert _ then [k + 1] else [k]) := by
    intro o m
    induction m with
    | zero =>
      intro held made h1 h2 ho
      obtain ⟨a, h', b, c⟩ := ho held (by omega)
      have hm : made = k := by omega
      subst hm
      exact ⟨⟨a, by rw [b]; trivial⟩, h', c, by simp only [List.replicate_zero, List.nil_append, hist]; rw [b]⟩
    | succ m ih =>
      intro held made h1 h2 ho
      have hg : call n held made [] .give = .back (held ++ [some made]) (made + 1) [] := by simp only [call]; rw [if_pos (by omega)]
      obtain ⟨a, h', b, c⟩ := ih (held ++ [some made]) (made + 1) (by simp; omega) (by omega) ho
      rw [List.replicate_succ, List.cons_append]
      refine ⟨⟨trivial, by rw [hg]; exact a⟩, h', b, ?_⟩
      unfold hist; rw [hg]; exact c
  have fin : ∀ (o : Call), (∀ h : List (Option Nat), h.length = k → valid h o ∧ ∃ h', call n h k [] o = .back h' (k + 2) (if o matches .insert _ then [k + 1] else [k]) ∧
      h'.length = k + 1) → ∃ s, OwnArr.run (OwnArr.init n) (List.replicate k .give ++ [o]) = .ok s ∧ s.made = k + 2 ∧
        s.gone = (if o matches .insert _ then [k + 1] else [k]) ∧ s.v.size = k + 1 := by
    intro o ho
    obtain ⟨a, h', b, c⟩ := key o k [] 0 (by simp) (by omega) ho
    have := C204_history_exact n _ a
    rw [c] at this
    obtain ⟨s, e1, _, e2, _, e3, e4⟩ := this
    exact ⟨s, e1, e3, e4, by rw [e2, b]⟩
  refine ⟨fin (.insert i) (fun h hl => ⟨show i ≤ h.length by omega, h.take i ++ some k :: h.drop i, ?_, ?_⟩), fin (.emplace i) (fun h hl => ⟨show i ≤ h.length by omega, h.take i ++ some (k + 1) :: h.drop i, ?_, ?_⟩)⟩
  · simp only [call]; rw [if_pos (by omega), if_neg (by omega)]; rfl
  · simp; omega
  · simp only [call]; rw [if_pos (by omega), if_neg (by omega)]; rfl
  · simp; omega

example := C204_extra_object (n := 4) (k := 2) (i := 1) (by decide) (by decide)

end Flame
