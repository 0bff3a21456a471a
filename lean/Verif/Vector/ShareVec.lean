import Verif.Vector.OwnVec

/-!
# C207: a `Vector` of `SharedPointer`s

The counter of a new object is 0 (Pointers.hpp 296-298, 358-363), a copy adds one (330-336), and a pointer that goes destroys the object if the counter is 0 *after*
it was decremented (427-435).  C30 states what that means for single pointers; here for pointers kept in a vector.
-/

namespace Flame.ShareVecSpec

/-- What a program does. -/
inductive Call where
  /-- a new pointer with a new object, `pushBack(p)`, and the pointer goes -/
  | copyIn
  /-- a new pointer with a new object, `pushBack(move(p))`, and the pointer goes -/
  | moveIn
  /-- the object of element `i` is used -/
  | use (i : Nat)
  /-- a copy of element `i` (taken through a const reference) is made, and goes -/
  | copyOut (i : Nat)
  /-- `popBack()` -/
  | pop
  /-- `clean()`, which is also what the destructor does before it frees the memory -/
  | clean
  /-- a copy of the whole vector is made (say, it is passed by value), and goes -/
  | byValue
  /-- `vec[i] = SharedPointer(...)`: a new pointer with a new object is assigned by move, and goes -/
  | setNew (i : Nat)
  deriving Repr

/-- How a history ends: the objects the vector points at, how many were made, the objects destroyed, oldest first. -/
inductive End where
  | back (held : List Nat) (made : Nat) (gone : List Nat)
  | undefined
  deriving Repr, DecidableEq

/-- One call. -/
def call (held : List Nat) (made : Nat) (gone : List Nat) : Call → End
  | .copyIn => .back (held ++ [made]) (made + 1) (gone ++ [made])
  | .moveIn => .back (held ++ [made]) (made + 1) gone
  | .use i => match held[i]? with
    | some r => if r ∈ gone then .undefined else .back held made gone
    | none => .undefined
  | .copyOut i => match held[i]? with
    | some r => if r ∈ gone then .undefined else .back held made (gone ++ [r])
    | none => .undefined
  | .pop => match held.getLast? with
    | some r => if r ∈ gone then .undefined else .back held.dropLast made gone
    | none => .back held made gone
  | .clean => if ∃ r ∈ held, r ∈ gone then .undefined else .back [] made gone
  | .byValue => if ∃ r ∈ held, r ∈ gone then .undefined else .back held made (gone ++ held)
  | .setNew i => match held[i]? with
    | some r => if r ∈ gone then .undefined else .back (held.set i made) (made + 1) gone
    | none => .undefined

/-- A history. -/
def hist (held : List Nat) (made : Nat) (gone : List Nat) : List Call → End
  | [] => .back held made gone
  | o :: os => match call held made gone o with
    | .back h m g => hist h m g os
    | .undefined => .undefined

end Flame.ShareVecSpec

namespace Flame.ShareVec
open Flame ElemVec ShareVecSpec
variable {can : Nat → Bool}

/-- The vector of pointers (an object's number, or null), the counters, the number of objects made, the objects destroyed. -/
structure St where
  v : EVec (Option Nat)
  cnt : Nat → Nat
  made : Nat
  gone : List Nat

/-- `counter--`, 64 bits. -/
def down (c : Nat) : Nat := (c + (2 ^ 64 - 1)) % 2 ^ 64

/-- `counter++`, 64 bits. -/
def up (c : Nat) : Nat := (c + 1) % 2 ^ 64

/-- Pointers.hpp 427-435 (`clean`, called by the destructor 365-369): the 64-bit counter is decremented, and the object destroyed if it is then 0.  The counter
lies beside the object and goes with it. -/
def cleanPtr (p : Option Nat) (cnt : Nat → Nat) (gone : List Nat) : Res ((Nat → Nat) × List Nat) :=
  match p with
  | none => .ok (cnt, gone)
  | some r =>
    if r ∈ gone then .ub
    else
      if down (cnt r) = 0 then .ok (fun x => if x = r then down (cnt x) else cnt x, gone ++ [r])
      else .ok (fun x => if x = r then down (cnt x) else cnt x, gone)

/-- Pointers.hpp 330-336: the copy constructor; there is no test for null. -/
def copyPtr (p : Option Nat) (cnt : Nat → Nat) (gone : List Nat) : Res (Nat → Nat) :=
  match p with
  | none => .ub
  | some r => if r ∈ gone then .ub else .ok (fun x => if x = r then up (cnt x) else cnt x)

/-- Vector.hpp 610-613: the destructor calls of `clean`. -/
def destroyAll : Nat → Nat → Slots (Option Nat) → (Nat → Nat) → List Nat → Res (Slots (Option Nat) × (Nat → Nat) × List Nat)
  | 0, _, b, cnt, gone => .ok (b, cnt, gone)
  | n + 1, i, b, cnt, gone => do
    let p ← obj b i
    let r ← cleanPtr p cnt gone
    destroyAll n (i + 1) (b.set i none) r.1 r.2

/-- Vector.hpp 413-415: the loop of the copy constructor. -/
def copyAll : Nat → Nat → Slots (Option Nat) → Slots (Option Nat) → (Nat → Nat) → List Nat → Res (Slots (Option Nat) × (Nat → Nat))
  | 0, _, _, w, cnt, _ => .ok (w, cnt)
  | n + 1, i, b, w, cnt, gone => do
    let p ← obj b i
    let cnt ← copyPtr p cnt gone
    let w ← put w i p
    copyAll n (i + 1) b w cnt gone

/-- One call.  `pushBack` (Vector.hpp 698-711, 713-723) constructs the element by copy or move construction (Pointers.hpp 330-336, 338-344); `popBack`
(738-743) destroys the last; `clean` is 606-615, the copy constructor 407-416, the destructor 461-466 (freeing the copy's memory is not modelled); the move assignment, Pointers.hpp 384-395, cleans
the target first; a new pointer is Pointers.hpp 358-363, using its object 397-419. -/
def step (can : Nat → Bool) (f : Nat) (s : St) : Call → Res St
  | .copyIn => do
    let cnt := fun x => if x = s.made then 0 else s.cnt x
    let cnt ← copyPtr (some s.made) cnt s.gone
    let v ← OwnVec.pushPtr can (some s.made) f s.v
    let r ← cleanPtr (some s.made) cnt s.gone
    .ok ⟨v, r.1, s.made + 1, r.2⟩
  | .moveIn => do
    let cnt := fun x => if x = s.made then 0 else s.cnt x
    let v ← OwnVec.pushPtr can (some s.made) f s.v
    let r ← cleanPtr none cnt s.gone
    .ok ⟨v, r.1, s.made + 1, r.2⟩
  | .use i =>
    if i < s.v.size then do
      let p ← obj s.v.mem i
      match p with
      | some r => if r ∈ s.gone then .ub else .ok s
      | none => .ub
    else .ub
  | .copyOut i =>
    if i < s.v.size then do
      let p ← obj s.v.mem i
      let cnt ← copyPtr p s.cnt s.gone
      let r ← cleanPtr p cnt s.gone
      .ok ⟨s.v, r.1, s.made, r.2⟩
    else .ub
  | .pop =>
    if s.v.size ≠ 0 then do
      let p ← obj s.v.mem (s.v.size - 1)
      let r ← cleanPtr p s.cnt s.gone
      .ok ⟨⟨s.v.mem.set (s.v.size - 1) none, s.v.cap, s.v.size - 1⟩, r.1, s.made, r.2⟩
    else .ok s
  | .clean => do
    let r ← destroyAll s.v.size 0 s.v.mem s.cnt s.gone
    .ok ⟨⟨r.1, s.v.cap, 0⟩, r.2.1, s.made, r.2.2⟩
  | .byValue => do
    let w ← copyAll s.v.size 0 s.v.mem (if can s.v.size then List.replicate s.v.size none else []) s.cnt s.gone
    let r ← destroyAll s.v.size 0 w.1 w.2 s.gone
    .ok ⟨s.v, r.2.1, s.made, r.2.2⟩
  | .setNew i =>
    if i < s.v.size then do
      let cnt := fun x => if x = s.made then 0 else s.cnt x
      let p ← obj s.v.mem i
      let r ← cleanPtr p cnt s.gone
      let b ← put s.v.mem i (some s.made)
      let r ← cleanPtr none r.1 r.2
      .ok ⟨⟨b, s.v.cap, s.v.size⟩, r.1, s.made + 1, r.2⟩
    else .ub

/-- A history. -/
def run (can : Nat → Bool) (f : Nat) (s : St) : List Call → Res St
  | [] => .ok s
  | o :: os => do
    let s ← step can f s o
    run can f s os

/-- A new vector (Vector.hpp 389-394). -/
def init : St := ⟨EVec.empty, fun _ => 0, 0, []⟩

/-- The code ends as the specification says. -/
def Seen (r : Res St) : End → Prop
  | .back held m g => ∃ s, r = .ok s ∧ s.v.size = held.length ∧ elems s.v.mem 0 s.v.size = .ok (held.map some) ∧ s.made = m ∧ s.gone = g
  | .undefined => r = .ub

/-- What holds between the calls. -/
structure Good (s : St) (held : List Nat) : Prop where
  has : Has s.v (held.map some)
  cap : s.v.cap = 0 ∨ 2 ≤ s.v.cap
  once : held.Nodup
  old : ∀ r ∈ held, r < s.made
  dead : ∀ r ∈ s.gone, r < s.made
  zero : ∀ r ∈ held, r ∉ s.gone → s.cnt r = 0

def Leaves (r : Res St) : End → Prop
  | .back held m g => ∃ s, r = .ok s ∧ Good s held ∧ s.made = m ∧ s.gone = g
  | .undefined => r = .ub

theorem Leaves.seen {r : Res St} {e : End} (h : Leaves r e) : Seen r e := by
  cases e with
  | back held m g =>
    obtain ⟨s, a, b, c, d⟩ := h
    exact ⟨s, a, by simpa using b.has.choose_spec.2.2, b.has.elems, c, d⟩
  | undefined => exact h

theorem push_ok (hcan : ∀ n, can n = true) (f : Nat) {v : EVec (Option Nat)} {xs : List (Option Nat)} (hv : Has v xs) (h : v.cap = 0 ∨ 2 ≤ v.cap)
    (p : Option Nat) : ∃ v', OwnVec.pushPtr can p (f + 2) v = .ok v' ∧ Has v' (xs ++ [p]) ∧ (v'.cap = 0 ∨ 2 ≤ v'.cap) := by
  have A := (OwnVec.push_leaves (s := ⟨v, 0, []⟩) hv hcan p f).1
  by_cases hr : xs.length < v.cap
  · obtain ⟨v', a, b, d⟩ := A v.cap (by unfold NestSpec.room; rw [if_pos hr])
    exact ⟨v', a, b, by omega⟩
  · by_cases h0 : v.cap = 0
    · obtain ⟨v', a, b, d⟩ := A 8 (by unfold NestSpec.room; rw [if_neg hr, if_pos h0])
      exact ⟨v', a, b, by omega⟩
    · obtain ⟨v', a, b, d⟩ := A (v.cap * 3 / 2) (by unfold NestSpec.room; rw [if_neg hr, if_neg h0, if_neg (show ¬ v.cap = 1 by omega)])
      exact ⟨v', a, b, by omega⟩

theorem obj_has {v : EVec (Option Nat)} {held : List Nat} (hv : Has v (held.map some)) {i r : Nat} (h : held[i]? = some r) : obj v.mem i = .ok (some r) := by
  obtain ⟨rest, a, b, d⟩ := hv
  have hi := (List.getElem?_eq_some_iff.mp h).1
  unfold obj
  rw [a, List.getElem?_append_left (by simpa using hi)]
  simp [h]

theorem down_up : down (up 0) = 0 := by decide
theorem down_zero : down 0 ≠ 0 := by decide

/-- A copy of a pointer with counter 0 is made and goes: the object is destroyed. -/
theorem copy_clean {r : Nat} {cnt : Nat → Nat} {gone : List Nat} (hg : r ∉ gone) (hz : cnt r = 0) : ∃ c1 c2, copyPtr (some r) cnt gone = .ok c1 ∧
    cleanPtr (some r) c1 gone = .ok (c2, gone ++ [r]) ∧ ∀ x, x ≠ r → c2 x = cnt x := by
  refine ⟨fun x => if x = r then up (cnt x) else cnt x,
    fun x => if x = r then down (if x = r then up (cnt x) else cnt x) else (if x = r then up (cnt x) else cnt x),
    by simp only [copyPtr]; rw [if_neg hg], ?_, ?_⟩
  · simp only [cleanPtr]
    rw [if_neg hg, if_pos (by rw [if_pos trivial, hz]; exact down_up)]
  · intro x hx
    simp only [if_neg hx]

/-- The only pointer to an object goes: the object stays. -/
theorem clean_sole {r : Nat} {cnt : Nat → Nat} {gone : List Nat} (hg : r ∉ gone) (hz : cnt r = 0) : ∃ c2, cleanPtr (some r) cnt gone = .ok (c2, gone) ∧
    ∀ x, x ≠ r → c2 x = cnt x := by
  refine ⟨fun x => if x = r then down (cnt x) else cnt x, ?_, fun x hx => by simp only [if_neg hx]⟩
  simp only [cleanPtr]
  rw [if_neg hg, if_neg (by rw [hz]; exact down_zero)]

/-- The cells of pointers to the objects. -/
def cells (ys : List Nat) : Slots (Option Nat) := ys.map fun r => some (some r)

theorem set_mid (P S : Slots (Option Nat)) (x y : Option (Option Nat)) : (P ++ x :: S).set P.length y = P ++ y :: S := by simp

theorem destroyAll_sole : ∀ (ys : List Nat) (P S : Slots (Option Nat)) (cnt : Nat → Nat) (gone : List Nat), ys.Nodup → (∀ r ∈ ys, r ∉ gone → cnt r = 0) →
    ((∃ r ∈ ys, r ∈ gone) → destroyAll ys.length P.length (P ++ (cells ys ++ S)) cnt gone = .ub) ∧
    ((¬ ∃ r ∈ ys, r ∈ gone) → ∃ c2, destroyAll ys.length P.length (P ++ (cells ys ++ S)) cnt gone =
      .ok (P ++ (List.replicate ys.length none ++ S), c2, gone)) := by
  intro ys
  induction ys with
  | nil =>
    intro P S cnt gone _ _
    exact ⟨fun h => by simp at h, fun _ => ⟨cnt, rfl⟩⟩
  | cons y ys ih =>
    intro P S cnt gone hn hz
    have hn' := List.nodup_cons.1 hn
    have e : destroyAll (y :: ys).length P.length (P ++ (cells (y :: ys) ++ S)) cnt gone =
        (cleanPtr (some y) cnt gone >>= fun r => destroyAll ys.length (P.length + 1) (P ++ none :: (cells ys ++ S)) r.1 r.2) := by
      simp only [List.length_cons, destroyAll, cells, List.map_cons, List.cons_append]
      rw [obj_mid P _ (some y) _ rfl, Res.ok_bind]
      simp only [set_mid]
    by_cases hg : y ∈ gone
    · have hu : cleanPtr (some y) cnt gone = .ub := by simp only [cleanPtr]; rw [if_pos hg]
      refine ⟨fun _ => by rw [e, hu]; rfl, fun h => absurd ⟨y, List.mem_cons_self, hg⟩ h⟩
    · obtain ⟨c2, q1, q2⟩ := clean_sole hg (hz y List.mem_cons_self hg)
      have I := ih (P ++ [none]) S c2 gone hn'.2 (fun r hr hng => by
        rw [q2 r (fun h => hn'.1 (h ▸ hr))]; exact hz r (List.mem_cons_of_mem _ hr) hng)
      simp only [List.length_append, List.length_cons, List.length_nil, Nat.zero_add, List.append_assoc, List.cons_append, List.nil_append] at I
      rw [e, q1, Res.ok_bind]
      refine ⟨fun h => I.1 ?_, fun h => ?_⟩
      · obtain ⟨r, hr, hrg⟩ := h
        rcases List.mem_cons.1 hr with rfl | hr
        · exact absurd hrg hg
        · exact ⟨r, hr, hrg⟩
      · obtain ⟨c3, e3⟩ := I.2 (fun ⟨r, hr, hrg⟩ => h ⟨r, List.mem_cons_of_mem _ hr, hrg⟩)
        exact ⟨c3, by rw [e3, List.length_cons, List.replicate_succ, List.cons_append]⟩

theorem destroyAll_shared : ∀ (ys : List Nat) (P S : Slots (Option Nat)) (cnt : Nat → Nat) (gone : List Nat), ys.Nodup →
    (∀ r ∈ ys, r ∉ gone ∧ cnt r = up 0) → ∃ c2, destroyAll ys.length P.length (P ++ (cells ys ++ S)) cnt gone =
      .ok (P ++ (List.replicate ys.length none ++ S), c2, gone ++ ys) := by
  intro ys
  induction ys with
  | nil => intro P S cnt gone _ _; exact ⟨cnt, by simp [destroyAll, cells]⟩
  | cons y ys ih =>
    intro P S cnt gone hn hz
    have hn' := List.nodup_cons.1 hn
    have hy := hz y List.mem_cons_self
    have q : cleanPtr (some y) cnt gone = .ok (fun x => if x = y then down (cnt x) else cnt x, gone ++ [y]) := by
      simp only [cleanPtr]
      rw [if_neg hy.1, if_pos (by rw [hy.2]; exact down_up)]
    obtain ⟨c2, e⟩ := ih (P ++ [none]) S (fun x => if x = y then down (cnt x) else cnt x) (gone ++ [y]) hn'.2 (fun r hr => by
      have hne : r ≠ y := fun h => hn'.1 (h ▸ hr)
      have := hz r (List.mem_cons_of_mem _ hr)
      exact ⟨by simp [hne, this.1], by rw [if_neg hne]; exact this.2⟩)
    simp only [List.length_append, List.length_cons, List.length_nil, Nat.zero_add, List.append_assoc, List.cons_append, List.nil_append] at e
    refine ⟨c2, ?_⟩
    simp only [List.length_cons, destroyAll, cells, List.map_cons, List.cons_append]
    rw [obj_mid P _ (some y) _ rfl, Res.ok_bind, q, Res.ok_bind]
    simp only [set_mid]
    simp only [cells] at e
    rw [e, List.replicate_succ, List.cons_append]

theorem copyAll_spec : ∀ (ys : List Nat) (P S W : Slots (Option Nat)) (cnt : Nat → Nat) (gone : List Nat), W.length = P.length → ys.Nodup →
    (∀ r ∈ ys, r ∉ gone → cnt r = 0) →
    ((∃ r ∈ ys, r ∈ gone) → copyAll ys.length P.length (P ++ (cells ys ++ S)) (W ++ List.replicate ys.length none) cnt gone = .ub) ∧
    ((¬ ∃ r ∈ ys, r ∈ gone) → ∃ c2, copyAll ys.length P.length (P ++ (cells ys ++ S)) (W ++ List.replicate ys.length none) cnt gone =
      .ok (W ++ cells ys, c2) ∧ (∀ r ∈ ys, c2 r = up 0) ∧ ∀ r, r ∉ ys → c2 r = cnt r) := by
  intro ys
  induction ys with
  | nil =>
    intro P S W cnt gone _ _ _
    exact ⟨fun h => by simp at h, fun _ => ⟨cnt, by simp [copyAll, cells], by simp, fun _ _ => rfl⟩⟩
  | cons y ys ih =>
    intro P S W cnt gone hw hn hz
    have hn' := List.nodup_cons.1 hn
    have e : copyAll (y :: ys).length P.length (P ++ (cells (y :: ys) ++ S)) (W ++ List.replicate (y :: ys).length none) cnt gone =
        (copyPtr (some y) cnt gone >>= fun c => copyAll ys.length (P.length + 1) (P ++ (cells (y :: ys) ++ S))
          (W ++ some (some y) :: List.replicate ys.length none) c gone) := by
      simp only [List.length_cons, copyAll, cells, List.map_cons, List.cons_append, List.replicate_succ]
      rw [obj_mid P _ (some y) _ rfl, Res.ok_bind, put_mid W _ _ (some y) _ hw.symm]
      simp only [Res.ok_bind]
    by_cases hg : y ∈ gone
    · have hu : copyPtr (some y) cnt gone = .ub := by simp only [copyPtr]; rw [if_pos hg]
      exact ⟨fun _ => by rw [e, hu]; rfl, fun h => absurd ⟨y, List.mem_cons_self, hg⟩ h⟩
    · have q : copyPtr (some y) cnt gone = .ok (fun x => if x = y then up (cnt x) else cnt x) := by simp only [copyPtr]; rw [if_neg hg]
      have I := ih (P ++ [some (some y)]) S (W ++ [some (some y)]) (fun x => if x = y then up (cnt x) else cnt x) gone (by simp [hw]) hn'.2 (fun r hr hng => by
        have hne : r ≠ y := fun h => hn'.1 (h ▸ hr)
        rw [if_neg hne]; exact hz r (List.mem_cons_of_mem _ hr) hng)
      simp only [List.length_append, List.length_cons, List.length_nil, Nat.zero_add, List.append_assoc, List.cons_append, List.nil_append] at I
      rw [e, q, Res.ok_bind]
      simp only [cells, List.map_cons, List.cons_append] at I ⊢
      refine ⟨fun h => I.1 ?_, fun h => ?_⟩
      · obtain ⟨r, hr, hrg⟩ := h
        rcases List.mem_cons.1 hr with rfl | hr
        · exact absurd hrg hg
        · exact ⟨r, hr, hrg⟩
      · obtain ⟨c3, e3, e4, e5⟩ := I.2 (fun ⟨r, hr, hrg⟩ => h ⟨r, List.mem_cons_of_mem _ hr, hrg⟩)
        refine ⟨c3, e3, fun r hr => ?_, fun r hr => ?_⟩
        · rcases List.mem_cons.1 hr with rfl | hr
          · rw [e5 r hn'.1, if_pos rfl, hz r List.mem_cons_self hg]
          · exact e4 r hr
        · have h2 : r ≠ y ∧ r ∉ ys := by simpa using hr
          rw [e5 r h2.2, if_neg h2.1]

theorem nodup_snoc {held : List Nat} {m : Nat} (h : held.Nodup) (ho : ∀ r ∈ held, r < m) : (held ++ [m]).Nodup := by
  rw [List.nodup_append]
  refine ⟨h, by simp, fun a ha b hb => ?_⟩
  have := ho a ha
  simp at hb
  omega

theorem step_leaves (hcan : ∀ n, can n = true) (f : Nat) {s : St} {held : List Nat} (h : Good s held) (o : Call) :
    Leaves (step can (f + 2) s o) (call held s.made s.gone o) := by
  have hvs : s.v.size = held.length := by simpa using h.has.choose_spec.2.2
  have hfresh : s.made ∉ s.gone := fun hm => absurd (h.dead _ hm) (by omega)
  obtain ⟨v', p1, p2, p3⟩ := push_ok hcan f h.has h.cap (some s.made)
  have p2' : Has v' ((held ++ [s.made]).map some) := by simpa using p2
  have hold : ∀ r ∈ held ++ [s.made], r < s.made + 1 := by
    intro r hr
    rcases List.mem_append.1 hr with hr | hr
    · have := h.old r hr; omega
    · simp at hr; omega
  cases o with
  | copyIn =>
    obtain ⟨c1, c2, q1, q2, q3⟩ := copy_clean (cnt := fun x => if x = s.made then 0 else s.cnt x) hfresh (if_pos rfl)
    simp only [step, call, q1, q2, Res.ok_bind, p1]
    refine ⟨_, rfl, ⟨p2', p3, nodup_snoc h.once h.old, hold, ?_, ?_⟩, rfl, rfl⟩
    · intro r hr
      rcases List.mem_append.1 hr with hr | hr
      · have := h.dead r hr; show r < s.made + 1; omega
      · simp at hr; show r < s.made + 1; omega
    · intro r hr hng
      have hng' : r ∉ s.gone ∧ r ≠ s.made := by simpa using hng
      have hr' : r ∈ held := by
        rcases List.mem_append.1 hr with hr | hr
        · exact hr
        · exact absurd (by simpa using hr) hng'.2
      show c2 r = 0
      rw [q3 r hng'.2, if_neg hng'.2]
      exact h.zero r hr' hng'.1
  | moveIn =>
    simp only [step, call, Res.ok_bind, p1, cleanPtr]
    refine ⟨_, rfl, ⟨p2', p3, nodup_snoc h.once h.old, hold, ?_, ?_⟩, rfl, rfl⟩
    · intro r hr
      have := h.dead r hr; show r < s.made + 1; omega
    · intro r hr hng
      by_cases he : r = s.made
      · simp only [if_pos he]
      · simp only [if_neg he]
        have hr' : r ∈ held := by
          rcases List.mem_append.1 hr with hr | hr
          · exact hr
          · exact absurd (by simpa using hr) he
        exact h.zero r hr' hng
  | use i =>
    simp only [step, call]
    by_cases hi : i < held.length
    · have he : held[i]? = some held[i] := List.getElem?_eq_getElem hi
      rw [if_pos (by omega), obj_has h.has he, he, Res.ok_bind]
      simp only []
      by_cases hg : held[i] ∈ s.gone
      · rw [if_pos hg, if_pos hg]; rfl
      · rw [if_neg hg, if_neg hg]; exact ⟨s, rfl, h, rfl, rfl⟩
    · rw [if_neg (by omega), List.getElem?_eq_none (by omega)]; rfl
  | copyOut i =>
    simp only [step, call]
    by_cases hi : i < held.length
    · have he : held[i]? = some held[i] := List.getElem?_eq_getElem hi
      rw [if_pos (by omega), obj_has h.has he, he, Res.ok_bind]
      simp only []
      by_cases hg : held[i] ∈ s.gone
      · simp only [copyPtr]
        rw [if_pos hg, if_pos hg]; rfl
      · have hz := h.zero _ (List.getElem_mem hi) hg
        obtain ⟨c1, c2, q1, q2, q3⟩ := copy_clean hg hz
        rw [if_neg hg, q1, Res.ok_bind, q2, Res.ok_bind]
        refine ⟨_, rfl, ⟨h.has, h.cap, h.once, h.old, ?_, ?_⟩, rfl, rfl⟩
        · intro r hr
          rcases List.mem_append.1 hr with hr | hr
          · exact h.dead r hr
          · rw [List.mem_singleton.1 hr]; exact h.old _ (List.getElem_mem hi)
        · intro r hr hng
          have hng' : r ∉ s.gone ∧ r ≠ held[i] := by simpa using hng
          show c2 r = 0
          rw [q3 r hng'.2]
          exact h.zero r hr hng'.1
    · rw [if_neg (by omega), List.getElem?_eq_none (by omega)]; rfl
  | pop =>
    simp only [step, call]
    rcases List.eq_nil_or_concat held with rfl | ⟨xs, x, rfl⟩
    · rw [if_neg (by simpa using hvs)]; exact ⟨s, rfl, h, rfl, rfl⟩
    · rw [List.concat_eq_append] at *
      have hl : (xs ++ [x]).length = xs.length + 1 := by simp
      have he : (xs ++ [x])[s.v.size - 1]? = some x := by rw [hvs, hl]; simp
      rw [if_pos (by omega), obj_has h.has he, Res.ok_bind]
      simp only [List.getLast?_append, List.getLast?_singleton, Option.some_or]
      by_cases hg : x ∈ s.gone
      · simp only [cleanPtr]
        rw [if_pos hg, if_pos hg]; rfl
      · have hz := h.zero x (by simp) hg
        obtain ⟨c2, q2, q3⟩ := clean_sole hg hz
        rw [if_neg hg, q2, Res.ok_bind, List.dropLast_concat]
        have hn := List.nodup_append.1 h.once
        refine ⟨_, rfl, ⟨?_, h.cap, hn.1, fun r hr => h.old r (by simp [hr]), h.dead, ?_⟩, rfl, rfl⟩
        · obtain ⟨rest, a, b, d⟩ := h.has
          refine has_of (S := none :: rest) ?_ ?_ ?_
          · rw [a, hvs, hl]; simp
          · rw [← b, a]; simp
          · rw [hvs, hl]; simp
        · intro r hr hng
          have : r ≠ x := hn.2.2 r hr x (by simp)
          show c2 r = 0
          rw [q3 r this]
          exact h.zero r (by simp [hr]) hng
  | clean =>
    obtain ⟨rest, a, b, d⟩ := h.has
    have a' : s.v.mem = [] ++ (cells held ++ rest) := by rw [a]; simp [cells]
    have D := destroyAll_sole held [] rest s.cnt s.gone h.once h.zero
    rw [← a', ← hvs] at D
    simp only [step, call]
    by_cases hd : ∃ r ∈ held, r ∈ s.gone
    · rw [if_pos hd]
      have : destroyAll s.v.size 0 s.v.mem s.cnt s.gone = .ub := D.1 hd
      rw [this]; rfl
    · rw [if_neg hd]
      obtain ⟨c2, e⟩ := D.2 hd
      have e : destroyAll s.v.size 0 s.v.mem s.cnt s.gone = _ := e
      rw [e, Res.ok_bind]
      refine ⟨_, rfl, ⟨has_of rfl ?_ rfl, h.cap, List.nodup_nil, fun _ hr => absurd hr (by simp), h.dead, fun _ hr => absurd hr (by simp)⟩, rfl, rfl⟩
      rw [← b, a, hvs]; simp
  | byValue =>
    obtain ⟨rest, a, b, d⟩ := h.has
    have a' : s.v.mem = [] ++ (cells held ++ rest) := by rw [a]; simp [cells]
    have C := copyAll_spec held [] rest [] s.cnt s.gone rfl h.once h.zero
    rw [← a', ← hvs] at C
    simp only [step, call, hcan, if_true]
    by_cases hd : ∃ r ∈ held, r ∈ s.gone
    · rw [if_pos hd]
      have : copyAll s.v.size 0 s.v.mem (List.replicate s.v.size none) s.cnt s.gone = .ub := C.1 hd
      rw [this]; rfl
    · rw [if_neg hd]
      obtain ⟨c2, e, e1, e2⟩ := C.2 hd
      have e : copyAll s.v.size 0 s.v.mem (List.replicate s.v.size none) s.cnt s.gone = .ok (cells held, c2) := e
      obtain ⟨c3, e3⟩ := destroyAll_shared held [] [] c2 s.gone h.once (fun r hr => ⟨fun hg => hd ⟨r, hr, hg⟩, e1 r hr⟩)
      rw [List.append_nil, ← hvs] at e3
      have e3 : destroyAll s.v.size 0 (cells held) c2 s.gone = _ := e3
      rw [e, Res.ok_bind, e3, Res.ok_bind]
      refine ⟨_, rfl, ⟨⟨rest, a, b, d⟩, h.cap, h.once, h.old, ?_, fun r hr hng => absurd (List.mem_append_right _ hr) hng⟩, rfl, rfl⟩
      intro r hr
      rcases List.mem_append.1 hr with hr | hr
      · exact h.dead r hr
      · exact h.old r hr
  | setNew i =>
    simp only [step, call]
    by_cases hi : i < held.length
    · have he : held[i]? = some held[i] := List.getElem?_eq_getElem hi
      rw [if_pos (by omega), obj_has h.has he, he, Res.ok_bind]
      simp only []
      obtain ⟨A, x, B, hA, hAB, hx⟩ : ∃ A x B, A.length = i ∧ held = A ++ x :: B ∧ held[i] = x :=
        ⟨held.take i, held[i], held.drop (i + 1), by simp; omega, by rw [List.getElem_cons_drop, List.take_append_drop], rfl⟩
      rw [hx]
      by_cases hg : x ∈ s.gone
      · simp only [cleanPtr]
        rw [if_pos hg, if_pos hg]; rfl
      · have hxm : x ∈ held := by rw [hAB]; simp
        have hlt := h.old x hxm
        have hzx := h.zero x hxm hg
        obtain ⟨c2, q1, q2⟩ := clean_sole (cnt := fun y => if y = s.made then 0 else s.cnt y) hg (by rw [if_neg (by omega)]; exact hzx)
        obtain ⟨rest, a, b, d⟩ := h.has
        have am : s.v.mem = (A.map some).map some ++ some (some x) :: ((B.map some).map some ++ rest) := by rw [a, hAB]; simp
        have hset : held.set i s.made = A ++ s.made :: B := by rw [hAB, ← hA]; simp
        have hnd := List.nodup_cons.1 ((List.Perm.nodup_iff List.perm_middle).1 (hAB ▸ h.once))
        have hin : ∀ r ∈ A ++ B, r ∈ held := by
          intro r hr
          rw [hAB]
          rcases List.mem_append.1 hr with hr | hr
          · exact List.mem_append_left _ hr
          · exact List.mem_append_right _ (List.mem_cons_of_mem _ hr)
        have hmem : ∀ r ∈ held.set i s.made, r = s.made ∨ r ∈ A ++ B := by
          intro r hr
          rw [hset] at hr
          exact List.mem_cons.1 (List.perm_middle.mem_iff.1 hr)
        rw [if_neg hg, q1, Res.ok_bind, am, put_mid _ _ _ (some s.made) i (by simp [hA])]
        simp only [Res.ok_bind, cleanPtr]
        refine ⟨_, rfl, ⟨?_, h.cap, ?_, ?_, ?_, ?_⟩, rfl, rfl⟩
        · refine has_of (S := rest) ?_ ?_ ?_
          · rw [hset]; simp
          · rw [← b, a]; simp
          · simp [hvs]
        · rw [hset]
          refine (List.Perm.nodup_iff List.perm_middle).2 (List.nodup_cons.2 ⟨fun hm => ?_, hnd.2⟩)
          have := h.old _ (hin _ hm)
          omega
        · intro r hr
          show r < s.made + 1
          rcases hmem r hr with rfl | hr
          · omega
          · have := h.old _ (hin _ hr); omega
        · intro r hr
          have := h.dead r hr; show r < s.made + 1; omega
        · intro r hr hng
          show c2 r = 0
          rcases hmem r hr with rfl | hr
          · rw [q2 _ (by omega), if_pos rfl]
          · have hne : r ≠ x := fun e => hnd.1 (e ▸ hr)
            have := h.old _ (hin _ hr)
            rw [q2 r hne, if_neg (by omega)]
            exact h.zero r (hin r hr) hng
    · rw [if_neg (by omega), List.getElem?_eq_none (by omega)]; rfl

theorem run_leaves (hcan : ∀ n, can n = true) (f : Nat) : ∀ (os : List Call) {s : St} {held : List Nat}, Good s held →
    Leaves (run can (f + 2) s os) (hist held s.made s.gone os) := by
  intro os
  induction os with
  | nil => intro s held h; exact ⟨s, rfl, h, rfl, rfl⟩
  | cons o os ih =>
    intro s held h
    have hs := step_leaves hcan f h o
    unfold hist
    cases hc : call held s.made s.gone o with
    | back h' m g =>
      rw [hc] at hs
      obtain ⟨s', a, b, rfl, rfl⟩ := hs
      rw [run, a, Res.ok_bind]
      exact ih b
    | undefined =>
      rw [hc] at hs
      have : step can (f + 2) s o = .ub := hs
      show run can (f + 2) s (o :: os) = .ub
      rw [run, this]; rfl

theorem calm : ∀ (os : List Call) (held : List Nat) (m : Nat), (∀ o ∈ os, o = .moveIn ∨ o = .pop ∨ o = .clean) → ∃ h' m', hist held m [] os = .back h' m' [] := by
  intro os
  induction os with
  | nil => intro held m _; exact ⟨held, m, rfl⟩
  | cons o os ih =>
    intro held m ho
    have hrest := fun o' h' => ho o' (List.mem_cons_of_mem _ h')
    unfold hist
    rcases ho o List.mem_cons_self with rfl | rfl | rfl
    · exact ih _ _ hrest
    · simp only [call]
      cases held.getLast? with
      | none => exact ih _ _ hrest
      | some r => simp only [List.not_mem_nil, if_false]; exact ih _ _ hrest
    · simp only [call]
      rw [if_neg (by simp)]
      exact ih _ _ hrest

theorem init_good : Good init [] :=
  ⟨⟨[], rfl, rfl, rfl⟩, Or.inl rfl, List.nodup_nil, fun _ h => absurd h (by simp), fun _ h => absurd h (by simp [init]), fun _ h => absurd h (by simp)⟩

end Flame.ShareVec

namespace Flame
open ShareVecSpec
open ElemVec (elems)
variable {can : Nat → Bool}

/-- **C207, exactly.**  What every history of calls on a new vector of shared pointers does, if memory can be had. -/
theorem C207_history_exact (hcan : ∀ n, can n = true) (f : Nat) (os : List Call) :
    ShareVec.Seen (ShareVec.run can (f + 2) ShareVec.init os) (hist [] 0 [] os) :=
  (ShareVec.run_leaves hcan f os (held := []) ShareVec.init_good).seen

example := C207_history_exact (can := fun _ => true) (fun _ => rfl) 0 [.moveIn, .copyIn, .moveIn, .use 0, .copyOut 0, .pop]
example : hist [] 0 [] [.moveIn, .copyIn, .moveIn, .use 0, .copyOut 0, .pop] = .back [0, 1] 3 [1, 0] := by decide
example : hist [] 0 [] [.moveIn, .moveIn, .clean, .moveIn, .moveIn, .byValue] = .back [2, 3] 4 [2, 3] := by decide
example : hist [] 0 [] [.moveIn, .moveIn, .setNew 0, .copyOut 0] = .back [2, 1] 3 [2] := by decide

/-- **C207 violated: objects the vector points at are destroyed.**  After any history that came back: an object whose pointer was put in by copy is destroyed at
once, when the original pointer goes, and using it through the vector is undefined. -/
theorem C207_copied_in_dangles (hcan : ∀ n, can n = true) (f : Nat) (os : List Call) {s : ShareVec.St}
    (h : ShareVec.run can (f + 2) ShareVec.init os = .ok s) :
    (∃ s', ShareVec.step can (f + 2) s .copyIn = .ok s' ∧ s'.gone = s.gone ++ [s.made] ∧ s'.v.size = s.v.size + 1 ∧
      ShareVec.step can (f + 2) s' (.use s.v.size) = .ub ∧ ShareVec.step can (f + 2) s' .pop = .ub) := by
  have hl := ShareVec.run_leaves hcan f os (held := []) ShareVec.init_good
  rw [h] at hl
  cases he : hist [] ShareVec.init.made ShareVec.init.gone os with
  | undefined => rw [he] at hl; cases hl
  | back held m g =>
    rw [he] at hl
    obtain ⟨s1, a, b, rfl, rfl⟩ := hl
    cases a
    have hvs : s.v.size = held.length := by simpa using b.has.choose_spec.2.2
    obtain ⟨s', e1, e2, e3, e4⟩ := ShareVec.step_leaves hcan f b .copyIn
    have hvs' : s'.v.size = (held ++ [s.made]).length := by simpa using e2.has.choose_spec.2.2
    have u := ShareVec.step_leaves hcan f e2 (.use held.length)
    have p := ShareVec.step_leaves hcan f e2 .pop
    simp only [call, e4] at u p
    refine ⟨s', e1, e4, by simp [hvs', hvs], ?_, ?_⟩
    · rw [hvs]; simpa [ShareVec.Leaves] using u
    · simpa [ShareVec.Leaves] using p

example := C207_copied_in_dangles (can := fun _ => true) (fun _ => rfl) 0 [.moveIn, .moveIn, .pop] rfl

/-- **C207 violated: passing the vector by value destroys everything in it.**  After any history of moves, removals and `clean` calls: when a copy of the vector
has come and gone, exactly the objects of the vector have been destroyed, and using any of them is undefined. -/
theorem C207_by_value_destroys (hcan : ∀ n, can n = true) (f : Nat) (os : List Call) (ho : ∀ o ∈ os, o = .moveIn ∨ o = .pop ∨ o = .clean) :
    ∃ s s' held, ShareVec.run can (f + 2) ShareVec.init os = .ok s ∧ elems s.v.mem 0 s.v.size = .ok (held.map some) ∧ s.gone = [] ∧
      ShareVec.step can (f + 2) s .byValue = .ok s' ∧ s'.v = s.v ∧ s'.gone = held ∧ ∀ i, ShareVec.step can (f + 2) s' (.use i) = .ub := by
  obtain ⟨held, m, e⟩ := ShareVec.calm os [] 0 ho
  have hl := ShareVec.run_leaves hcan f os (held := []) ShareVec.init_good
  rw [show ShareVec.init.made = 0 from rfl, show ShareVec.init.gone = [] from rfl, e] at hl
  obtain ⟨s, a, b, c, d⟩ := hl
  have hb := ShareVec.step_leaves hcan f b .byValue
  have hcall : call held s.made s.gone .byValue = .back held s.made held := by simp only [call, d]; rw [if_neg (by simp)]; rfl
  rw [hcall] at hb
  obtain ⟨s', e1, e2, e3, e4⟩ := hb
  refine ⟨s, s', held, a, b.has.elems, d, e1, ?_, e4, fun i => ?_⟩
  · simp only [ShareVec.step] at e1
    cases hw : ShareVec.copyAll s.v.size 0 s.v.mem (if can s.v.size then List.replicate s.v.size none else []) s.cnt s.gone with
    | ok w =>
      rw [hw, Res.ok_bind] at e1
      cases hr : ShareVec.destroyAll s.v.size 0 w.1 w.2 s.gone with
      | ok r => rw [hr, Res.ok_bind] at e1; cases e1; rfl
      | ub => rw [hr] at e1; cases e1
      | loop => rw [hr] at e1; cases e1
    | ub => rw [hw] at e1; cases e1
    | loop => rw [hw] at e1; cases e1
  · have u := ShareVec.step_leaves hcan f e2 (.use i)
    simp only [call, e4] at u
    by_cases hi : i < held.length
    · rw [List.getElem?_eq_getElem hi] at u
      simp only [List.getElem_mem, if_true] at u
      exact u
    · rw [List.getElem?_eq_none (by omega)] at u
      exact u

example := C207_by_value_destroys (can := fun _ => true) (fun _ => rfl) 0 [.moveIn, .clean, .moveIn, .moveIn, .pop, .moveIn] (by simp)

/-- **C207 violated: objects nobody points at are not destroyed.**  Objects whose pointers were moved in and removed again are never destroyed. -/
theorem C207_moved_in_leaks (hcan : ∀ n, can n = true) (f n : Nat) :
    ∃ s, ShareVec.run can (f + 2) ShareVec.init (List.replicate n .moveIn ++ List.replicate n .pop) = .ok s ∧ s.v.size = 0 ∧ s.made = n ∧ s.gone = [] := by
  have hpop : ∀ (k : Nat) (held : List Nat) (m : Nat), held.length = k → hist held m [] (List.replicate k .pop) = .back [] m [] := by
    intro k
    induction k with
    | zero => intro held m h; have := List.eq_nil_of_length_eq_zero h; subst this; rfl
    | succ k ih =>
      intro held m h
      rcases List.eq_nil_or_concat held with rfl | ⟨xs, x, rfl⟩
      · simp at h
      · rw [List.concat_eq_append] at *
        rw [List.replicate_succ]
        unfold hist
        simp only [call, List.getLast?_append, List.getLast?_singleton, Option.some_or, List.not_mem_nil, if_false, List.dropLast_concat]
        exact ih xs m (by simpa using h)
  have hpush : ∀ (k : Nat) (held : List Nat) (m : Nat), held.length + k = n → m + k = n →
      hist held m [] (List.replicate k .moveIn ++ List.replicate n .pop) = .back [] n [] := by
    intro k
    induction k with
    | zero => intro held m h hm; rw [← show m = n by omega, show m = held.length by omega]; exact hpop _ held _ rfl
    | succ k ih =>
      intro held m h hm
      rw [List.replicate_succ, List.cons_append]
      unfold hist
      simp only [call]
      exact ih _ _ (by simp; omega) (by omega)
  have := C207_history_exact hcan f (List.replicate n .moveIn ++ List.replicate n .pop)
  rw [hpush n [] 0 (by simp) (by omega)] at this
  obtain ⟨s, a, b, _, c, d⟩ := this
  exact ⟨s, a, by simpa using b, c, d⟩

example := C207_moved_in_leaks (can := fun _ => true) (fun _ => rfl) 0 3

/-- **C207 violated: nothing moved in is ever destroyed.**  Whatever the history of moves, removals and `clean` calls, when the vector is cleaned (or destroyed) at
its end, nobody points at any object any more, as many objects were made as pointers moved in, and none of them was destroyed. -/
theorem C207_nothing_destroyed (hcan : ∀ n, can n = true) (f : Nat) (os : List Call) (ho : ∀ o ∈ os, o = .moveIn ∨ o = .pop ∨ o = .clean) :
    ∃ s, ShareVec.run can (f + 2) ShareVec.init (os ++ [.clean]) = .ok s ∧ s.v.size = 0 ∧ s.made = os.countP (fun o => o matches .moveIn) ∧ s.gone = [] := by
  have key : ∀ (os : List Call) (held : List Nat) (m : Nat), (∀ o ∈ os, o = .moveIn ∨ o = .pop ∨ o = .clean) →
      hist held m [] (os ++ [.clean]) = .back [] (m + os.countP (fun o => o matches .moveIn)) [] := by
    intro os
    induction os with
    | nil => intro held m _; simp [hist, call]
    | cons o os ih =>
      intro held m ho
      have hrest := fun o' h' => ho o' (List.mem_cons_of_mem _ h')
      rw [List.cons_append]
      unfold hist
      rcases ho o List.mem_cons_self with rfl | rfl | rfl
      · simp only [call]
        rw [ih _ _ hrest, List.countP_cons_of_pos (by rfl)]
        congr 1; omega
      · rw [List.countP_cons_of_neg (by simp)]
        simp only [call]
        cases held.getLast? with
        | none => exact ih _ _ hrest
        | some r => simp only [List.not_mem_nil, if_false]; exact ih _ _ hrest
      · rw [List.countP_cons_of_neg (by simp)]
        simp only [call]
        rw [if_neg (by simp)]
        exact ih _ _ hrest
  have := C207_history_exact hcan f (os ++ [.clean])
  rw [key os [] 0 ho, Nat.zero_add] at this
  obtain ⟨s, a, b, _, c, d⟩ := this
  exact ⟨s, a, by simpa using b, c, d⟩

example := C207_nothing_destroyed (can := fun _ => true) (fun _ => rfl) 0 [.moveIn, .moveIn, .pop, .clean, .moveIn] (by simp)

/-- **C207 (partial).**  As long as pointers are only moved in, used and removed (one by one or all), every call with a position inside the vector is defined, no object is destroyed,
and the vector is the list of the objects.  Missing: copies (`C207_copied_in_dangles`, `C207_by_value_destroys`) and the destruction of objects removed (`C207_moved_in_leaks`). -/
theorem C207_alive_partial (hcan : ∀ n, can n = true) (f : Nat) (os : List Call) (ho : ∀ o ∈ os, o = .moveIn ∨ o = .pop ∨ o = .clean) (i : Nat) :
    ∃ s, ShareVec.run can (f + 2) ShareVec.init os = .ok s ∧ s.gone = [] ∧ (i < s.v.size → ShareVec.step can (f + 2) s (.use i) = .ok s) := by
  obtain ⟨h', m', e⟩ := ShareVec.calm os [] 0 ho
  have hl := ShareVec.run_leaves hcan f os (held := []) ShareVec.init_good
  rw [show ShareVec.init.made = 0 from rfl, show ShareVec.init.gone = [] from rfl, e] at hl
  obtain ⟨s, a, b, c, d⟩ := hl
  refine ⟨s, a, d, fun hi => ?_⟩
  have hvs : s.v.size = h'.length := by simpa using b.has.choose_spec.2.2
  have hi' : i < h'.length := by omega
  simp only [ShareVec.step]
  rw [if_pos hi, ShareVec.obj_has b.has (List.getElem?_eq_getElem hi'), Res.ok_bind]
  simp [d]

example := C207_alive_partial (can := fun _ => true) (fun _ => rfl) 0 [.moveIn, .clean, .moveIn, .moveIn, .pop, .moveIn] (by simp) 1

end Flame
