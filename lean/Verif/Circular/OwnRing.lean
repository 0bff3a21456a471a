import Verif.Circular.DestroyExact
import Verif.Array.OwnArr

/-!
# C205: a `CircularArray` of `UniquePointer`s

A queue of objects.  For a class that can only be moved `pushBack(&&)`, `emplaceBack()` without arguments, `popFront`, the move constructor and the destructor
compile; `clean` does not (345-353: its loop variable is a copy).
-/

namespace Flame.OwnRingSpec
open OwnVecSpec (objects)

/-- The calls. -/
inductive Call where
  /-- a new pointer with a new object, moved in by `pushBack(move(p))`, and then destroyed -/
  | give
  /-- the same with `makeEmpty()` -/
  | giveNull
  /-- `emplaceBack()` -/
  | emplace
  /-- `popFront()` -/
  | pop
  deriving Repr

/-- The pointers waiting, oldest first; how many objects were made; the objects destroyed, oldest first. -/
structure Queue where
  held : List (Option Nat)
  made : Nat
  gone : List Nat
  deriving Repr, DecidableEq

/-- One call on a queue with room for `N`. -/
def call (N : Nat) (q : Queue) : Call → Queue
  | .give | .emplace =>
    if q.held.length < N then ⟨q.held ++ [some q.made], q.made + 1, q.gone⟩ else ⟨q.held, q.made + 1, q.gone ++ [q.made]⟩
  | .giveNull => if q.held.length < N then ⟨q.held ++ [none], q.made, q.gone⟩ else q
  | .pop => ⟨q.held.drop 1, q.made, q.gone ++ objects (q.held.take 1)⟩

/-- A history, starting from nothing. -/
def hist (N : Nat) (os : List Call) : Queue := os.foldl (call N) ⟨[], 0, []⟩

end Flame.OwnRingSpec

namespace Flame.OwnRing
open Flame CArr OwnRingSpec
open OwnVec (cleanPtr)
open OwnVecSpec (objects)

/-- The array of pointers (an object's number in the order of making, or null), the number of objects made, the objects destroyed. -/
structure St where
  a : CArr (Option Nat)
  made : Nat
  gone : List Nat

/-- CircularArray.hpp 366-376: `pushBack(&&)` with a pointer `p`, which is destroyed afterwards (Pointers.hpp 503-507): it is null if the array took it over
(470-476) and otherwise still has its object. -/
def pushMove (s : St) (p : Option Nat) : Res (CArr (Option Nat) × List Nat) :=
  if s.a.size ≠ s.a.capacity then do
    let a ← CArr.pushBack s.a p
    let gone ← cleanPtr none s.gone
    .ok (a, gone)
  else do
    let gone ← cleanPtr p s.gone
    .ok (s.a, gone)

/-- CircularArray.hpp 420-428: the pointer at the head is destroyed, and its object with it. -/
def popFront (s : St) : Res St :=
  if s.a.head ≠ s.a.tail then do
    let p ← s.a.buf.get s.a.head
    let gone ← cleanPtr p s.gone
    let a ← CArr.popFront false s.a
    .ok ⟨a, s.made, gone⟩
  else .ok s

/-- One call.  `emplaceBack()` (CircularArray.hpp 414-418) makes a temporary pointer with a new object (Pointers.hpp 463-468) and hands it to
`pushBack(&&)`. -/
def step (s : St) : Call → Res St
  | .give | .emplace => do
    let r ← pushMove s (some s.made)
    .ok ⟨r.1, s.made + 1, r.2⟩
  | .giveNull => do
    let r ← pushMove s none
    .ok ⟨r.1, s.made, r.2⟩
  | .pop => popFront s

/-- A history. -/
def run (s : St) : List Call → Res St
  | [] => .ok s
  | o :: os => do
    let s ← step s o
    run s os

/-- A new array (CircularArray.hpp 263-266). -/
def init (N : Nat) : St := ⟨CArr.empty N, 0, []⟩

/-- The loop of the destructor (CircularArray.hpp 288-295) from `p` to `e`: every pointer is destroyed, and its object with it. -/
def endWalk : Nat → Cells (Option Nat) → List Nat → Nat → Nat → Res (Cells (Option Nat) × List Nat)
  | 0, _, _, _, _ => .loop
  | f + 1, b, gone, p, e =>
    if p = e then .ok (b, gone)
    else do
      let x ← b.get p
      let gone ← cleanPtr x gone
      let b' ← b.destroy false p
      endWalk f b' gone (CIter.inc b.length p).toNat e

/-- The destructor: the loop, then that of the inner `StaticVector` (Array.hpp 502-507), which destroys the elements it believes to have. -/
def destruct (s : St) : Res (List Nat) := do
  let r ← endWalk (s.a.buf.length + 1) s.a.buf s.gone s.a.head (advance s.a s.a.head s.a.size)
  let _ ← r.1.destroyRange false 0 s.a.own
  .ok r.2

theorem endWalk_ok {h n : Nat} :
    ∀ (k : Nat) (l : List (Option Nat)) (b : Cells (Option Nat)) (gone : List Nat) (i f : Nat), b.length = n → h < n → l.length = k → k + i < n → k < f →
      (∀ j a, l[j]? = some a → b[slot n h (i + j)]? = some (.live a)) → (objects l ++ gone).Nodup →
      ∃ b', endWalk f b gone (slot n h i) (slot n h (k + i)) = .ok (b', gone ++ objects l) := by
  intro k
  induction k with
  | zero =>
    intro l b gone i f hn _ hl _ hf _ _
    obtain ⟨f, rfl⟩ : ∃ g, f = g + 1 := ⟨f - 1, by omega⟩
    have := List.eq_nil_of_length_eq_zero hl
    subst this
    exact ⟨b, by simp [endWalk, objects]⟩
  | succ k ih =>
    intro l b gone i f hn hh hl hk hf hc hd
    obtain ⟨f, rfl⟩ : ∃ g, f = g + 1 := ⟨f - 1, by omega⟩
    cases l with
    | nil => simp at hl
    | cons a l =>
      simp only [List.length_cons] at hl
      have hcell := hc 0 a (by simp)
      rw [Nat.add_zero] at hcell
      have hne : slot n h i ≠ slot n h (k + 1 + i) := by
        intro he; have := slot_inj hh (by omega) (by omega) he; omega
      have ea : objects (a :: l) = objects [a] ++ objects l := OwnVec.objects_append [a] l
      rw [ea] at hd
      have h1 : (objects [a] ++ gone).Nodup := hd.sublist (List.Sublist.append_right (List.sublist_append_left _ _) _)
      have h2 : (objects l ++ (gone ++ objects [a])).Nodup := by
        refine (List.Perm.nodup_iff ?_).1 hd
        rw [List.append_assoc, ← List.append_assoc (objects l)]
        exact List.perm_append_comm
      obtain ⟨b', e⟩ := ih l (b.set (slot n h i) .raw) (gone ++ objects [a]) (i + 1) f (by simpa using hn) hh (by omega) (by omega) (by omega) (by
        intro j x hj
        have hjl := (List.getElem?_eq_some_iff.mp hj).1
        rw [List.getElem?_set_ne, show i + 1 + j = i + (j + 1) by omega, hc (j + 1) x (by simpa using hj)]
        intro he; have := slot_inj hh (by omega) (by omega) he; omega) h2
      refine ⟨b', ?_⟩
      rw [endWalk, if_neg hne]
      simp only [Cells.get, Cells.destroy, hcell, Res.ok_bind]
      rw [OwnVec.cleanPtr_ok h1, Res.ok_bind, hn, slot_inc hh (by omega), show k + 1 + i = k + (i + 1) by omega, e, ea, List.append_assoc]

/-- What holds between the calls. -/
def Good (N : Nat) (s : St) (q : Queue) : Prop :=
  CArr.Rep s.a q.held ∧ s.a.buf.length = N + 1 ∧ s.a.own = 0 ∧ s.made = q.made ∧ s.gone = q.gone ∧ OwnVec.Inv q.held q.made q.gone

theorem inv_null {held : List (Option Nat)} {made : Nat} {gone : List Nat} (h : OwnVec.Inv held made gone) : OwnVec.Inv (held ++ [none]) made gone := by
  unfold OwnVec.Inv at *
  rw [OwnVec.objects_append, show objects [none] = [] from rfl, List.append_nil]; exact h

theorem step_good {N : Nat} {s : St} {q : Queue} (h : Good N s q) (o : Call) : ∃ s', step s o = .ok s' ∧ Good N s' (call N q o) := by
  obtain ⟨a, made, gone⟩ := s
  obtain ⟨held, m, g⟩ := q
  obtain ⟨r, hb, ho, h1, h2, hI⟩ := h
  simp only at r hb ho h1 h2 hI
  subst h1 h2
  have hcap : a.capacity = N := by unfold capacity; omega
  have hlen := r.len
  have push : ∀ p : Option Nat, held.length < N → ∃ a', pushMove ⟨a, made, gone⟩ p = .ok (a', gone) ∧ CArr.Rep a' (held ++ [p]) ∧ a'.buf.length = N + 1 ∧ a'.own = 0 := by
    intro p hr
    obtain ⟨a', e1, e2, e3, e4, _⟩ := pushBack_ok r p
    rw [hcap, if_pos hr] at e4
    refine ⟨a', ?_, e4, by omega, by omega⟩
    simp only [pushMove]
    rw [if_pos (by rw [size_eq r, hcap]; omega), e1]; rfl
  have full : ∀ p : Option Nat, ¬ held.length < N → pushMove ⟨a, made, gone⟩ p = (do let gone ← cleanPtr p gone; .ok (a, gone)) := by
    intro p hr
    simp only [pushMove]
    rw [if_neg (by rw [size_eq r, hcap]; omega)]
  have new : ∃ s', (do let r ← pushMove ⟨a, made, gone⟩ (some made); .ok ⟨r.1, made + 1, r.2⟩ : Res St) = .ok s' ∧
      Good N s' (if held.length < N then ⟨held ++ [some made], made + 1, gone⟩ else ⟨held, made + 1, gone ++ [made]⟩) := by
    by_cases hr : held.length < N
    · obtain ⟨a', e1, e2, e3, e4⟩ := push (some made) hr
      rw [if_pos hr, e1]
      exact ⟨⟨a', made + 1, gone⟩, rfl, e2, e3, e4, rfl, rfl, OwnVec.inv_new hI⟩
    · rw [if_neg hr, full _ hr, OwnArr.fresh_clean hI (Nat.le_refl _)]
      exact ⟨⟨a, made + 1, gone ++ [made]⟩, rfl, r, hb, ho, rfl, rfl, OwnArr.inv_lost hI⟩
  cases o with
  | give => exact new
  | emplace => exact new
  | giveNull =>
    simp only [step, call]
    by_cases hr : held.length < N
    · obtain ⟨a', e1, e2, e3, e4⟩ := push none hr
      rw [if_pos hr, e1]
      exact ⟨⟨a', made, gone⟩, rfl, e2, e3, e4, rfl, rfl, inv_null hI⟩
    · rw [if_neg hr, full _ hr]
      exact ⟨⟨a, made, gone⟩, rfl, r, hb, ho, rfl, rfl, hI⟩
  | pop =>
    simp only [step, call, popFront]
    have e0 : slot a.buf.length a.head 0 = a.head := by unfold slot; simp [r.headLt]
    cases held with
    | nil =>
      have ht : a.tail = a.head := by rw [r.tailEq]; simpa using e0
      rw [if_neg (by simp [ht])]
      refine ⟨⟨a, made, gone⟩, rfl, r, hb, ho, rfl, by simp [objects], ?_⟩
      simpa [objects] using hI
    | cons p held =>
      simp only [List.length_cons] at hlen
      have hne : a.head ≠ a.tail := by
        rw [r.tailEq]
        intro he
        have := slot_inj (i := 0) (j := (p :: held).length) r.headLt (by omega) (by simp; omega) (e0.trans he)
        simp at this
      have hcell := r.cells 0 p (by simp)
      rw [e0] at hcell
      have hp : (objects [p] ++ gone).Nodup := by
        have := hI.nodup
        rw [show p :: held = [p] ++ held from rfl, OwnVec.objects_append] at this
        exact this.sublist (List.Sublist.append_right (List.sublist_append_left _ _) _)
      obtain ⟨a', e1, e2, e3, e4, _⟩ := popFront_ok r false
      rw [if_pos hne]
      have hg : a.buf.get a.head = .ok p := by simp only [Cells.get, hcell]
      rw [hg, Res.ok_bind, OwnVec.cleanPtr_ok hp, Res.ok_bind, e1]
      refine ⟨⟨a', made, gone ++ objects [p]⟩, rfl, e4, e2.trans hb, e3.trans ho, rfl, rfl, ?_⟩
      refine OwnVec.inv_move hI ?_
      rw [show p :: held = [p] ++ held from rfl, OwnVec.objects_append]
      exact List.Perm.refl _

theorem run_good {N : Nat} : ∀ (os : List Call) {s : St} {q : Queue}, Good N s q → ∃ s', run s os = .ok s' ∧ Good N s' (os.foldl (call N) q) := by
  intro os
  induction os with
  | nil => intro s q h; exact ⟨s, rfl, h⟩
  | cons o os ih =>
    intro s q h
    obtain ⟨s1, a, b⟩ := step_good h o
    rw [run, a, Res.ok_bind]
    exact ih b

theorem init_good (N : Nat) : Good N (init N) ⟨[], 0, []⟩ :=
  ⟨rep_empty N, by simp [init, CArr.empty], rfl, rfl, rfl, List.Perm.refl _⟩

theorem destruct_good {N : Nat} {s : St} {q : Queue} (h : Good N s q) : destruct s = .ok (q.gone ++ objects q.held) := by
  obtain ⟨r, hb, ho, h1, h2, hI⟩ := h
  have hlen := r.len
  have e0 : slot s.a.buf.length s.a.head 0 = s.a.head := by unfold slot; simp [r.headLt]
  obtain ⟨b', e⟩ := endWalk_ok (h := s.a.head) (n := s.a.buf.length) q.held.length q.held s.a.buf s.gone 0 (s.a.buf.length + 1) rfl r.headLt rfl (by omega)
    (by omega) (by intro j a hj; rw [Nat.zero_add]; exact r.cells j a hj) (by rw [h2]; exact hI.nodup)
  rw [e0] at e
  simp only [Nat.add_zero] at e
  unfold destruct
  rw [size_eq r, advance_eq r.headLt hlen, e, Res.ok_bind, ho, h2]
  rfl

/-- The loop of the destructor treats the memory as the loop of `CArr.destruct` does. -/
theorem endWalk_walk : ∀ (f : Nat) (b : Cells (Option Nat)) (gone : List Nat) (p e : Nat),
    (∀ b' g, endWalk f b gone p e = .ok (b', g) → destroyWalk false b f p e = .ok b') ∧ (endWalk f b gone p e = .loop → destroyWalk false b f p e = .loop) := by
  intro f
  induction f with
  | zero => intro b gone p e; exact ⟨fun _ _ h => (by cases h), fun _ => rfl⟩
  | succ f ih =>
    intro b gone p e
    by_cases hpe : p = e
    · rw [endWalk, destroyWalk, if_pos hpe, if_pos hpe]
      exact ⟨fun b' g h => by cases h; rfl, fun h => by cases h⟩
    · rw [endWalk, destroyWalk, if_neg hpe, if_neg hpe]
      cases hx : b.get p with
      | ub => exact ⟨fun _ _ h => (by cases h), fun h => by cases h⟩
      | loop => unfold Cells.get at hx; split at hx <;> cases hx
      | ok x =>
        rw [Res.ok_bind]
        cases hc : cleanPtr x gone with
        | ub => exact ⟨fun _ _ h => (by cases h), fun h => by cases h⟩
        | loop => unfold OwnVec.cleanPtr at hc; split at hc <;> (try split at hc) <;> cases hc
        | ok g =>
          rw [Res.ok_bind]
          cases hd : b.destroy false p with
          | ub => exact ⟨fun _ _ h => (by cases h), fun h => by cases h⟩
          | loop => exact ⟨fun _ _ h => (by cases h), fun _ => rfl⟩
          | ok b' => rw [Res.ok_bind]; exact ih b' g _ e

theorem destruct_ub {a : CArr (Option Nat)} (h : a.destruct false = .ub) (made : Nat) (gone : List Nat) : destruct ⟨a, made, gone⟩ = .ub := by
  unfold destruct
  unfold CArr.destruct at h
  have w := endWalk_walk (a.buf.length + 1) a.buf gone a.head (advance a a.head a.size)
  cases he : endWalk (a.buf.length + 1) a.buf gone a.head (advance a a.head a.size) with
  | ub => rfl
  | loop => rw [w.2 he] at h; cases h
  | ok r =>
    rw [w.1 r.1 r.2 he] at h
    have h : r.1.destroyRange false 0 a.own = .ub := h
    rw [Res.ok_bind]
    simp only [h]
    rfl

end Flame.OwnRing

namespace Flame
open OwnRingSpec

/-- **C205, exactly.**  Every history of calls on a new circular array of unique pointers is defined; the array then shows the pointers of the bounded queue,
oldest first, exactly the objects were made and destroyed, in that order, that the queue says, and destroying the array destroys the objects left, oldest
first. -/
theorem C205_history_exact (N : Nat) (os : List Call) : ∃ s, OwnRing.run (OwnRing.init N) os = .ok s ∧ s.a.toList = .ok (hist N os).held ∧
    s.a.size = (hist N os).held.length ∧ s.a.capacity = N ∧ s.made = (hist N os).made ∧ s.gone = (hist N os).gone ∧
    OwnRing.destruct s = .ok ((hist N os).gone ++ (hist N os).held.filterMap id) := by
  obtain ⟨s, a, h⟩ := OwnRing.run_good os (OwnRing.init_good N)
  have hd := OwnRing.destruct_good h
  obtain ⟨r, hb, ho, h1, h2, hI⟩ := h
  exact ⟨s, a, CArr.toList_ok r, CArr.size_eq r, by unfold CArr.capacity; omega, h1, h2, hd⟩

example := C205_history_exact 2 [.give, .emplace, .give, .pop, .giveNull, .pop, .give]
example : hist 2 [.give, .emplace, .give, .pop, .giveNull, .pop, .give] = ⟨[none, some 3], 4, [2, 0, 1]⟩ := by decide

/-- **C205, each object once.**  After every history every object made is either waiting once and not destroyed, or not waiting and destroyed once; after the
destruction of the array every object made was destroyed exactly once, and nothing else was. -/
theorem C205_destroyed_once (N : Nat) (os : List Call) : ∃ s held g, OwnRing.run (OwnRing.init N) os = .ok s ∧ s.a.toList = .ok held ∧ held.length ≤ N ∧
    (∀ r, held.count (some r) + s.gone.count r = if r < s.made then 1 else 0) ∧
    OwnRing.destruct s = .ok g ∧ ∀ r, g.count r = if r < s.made then 1 else 0 := by
  obtain ⟨s, a, h⟩ := OwnRing.run_good os (OwnRing.init_good N)
  have hd := OwnRing.destruct_good h
  obtain ⟨r, hb, ho, h1, h2, hI⟩ := h
  have hlen := r.len
  have cnt : ∀ (l : List (Option Nat)) (r : Nat), (OwnVecSpec.objects l).count r = l.count (some r) := by
    intro l r
    induction l with
    | nil => rfl
    | cons p l ih =>
      cases p with
      | none => simp [OwnVecSpec.objects] at ih ⊢; exact ih
      | some q =>
        simp only [OwnVecSpec.objects, List.filterMap_cons, id] at ih ⊢
        rw [List.count_cons, List.count_cons, ih]; simp
  have rng : ∀ n r : Nat, (List.range n).count r = if r < n then 1 else 0 := by
    intro n r
    split
    · exact List.nodup_range.count.trans (by simp [*])
    · exact List.count_eq_zero.2 (by simp; omega)
  have key : ∀ r, (List.foldl (call N) ⟨[], 0, []⟩ os).held.count (some r) + s.gone.count r = if r < s.made then 1 else 0 := by
    intro r
    rw [h1, h2, ← rng, ← List.Perm.count_eq hI r, List.count_append, cnt]
  refine ⟨s, _, _, a, CArr.toList_ok r, by omega, key, hd, fun r => ?_⟩
  rw [List.count_append, cnt, ← key r, h2]; omega

example := C205_destroyed_once 2 [.give, .emplace, .give, .pop, .giveNull, .pop, .give]

/-- **C205 violated.**  An array made by moving from one in which anything waits cannot be destroyed: its pointers are destroyed twice. -/
theorem C205_moved_ub (N : Nat) (os : List Call) (hne : (hist N os).held ≠ []) :
    ∃ s c, OwnRing.run (OwnRing.init N) os = .ok s ∧ s.a.moveCtor = .ok c ∧ c.toList = .ok (hist N os).held ∧ c.destruct false = .ub ∧
      OwnRing.destruct ⟨c, s.made, s.gone⟩ = .ub := by
  obtain ⟨s, a, h⟩ := OwnRing.run_good os (OwnRing.init_good N)
  obtain ⟨r, hb, ho, h1, h2, hI⟩ := h
  obtain ⟨c, e1, e2⟩ := C59_move_ctor r
  obtain ⟨c1, x1, _, x3⟩ := (C60_exact N []).2 s.a c _ r (Or.inl e1) trivial
  cases x1
  exact ⟨s, c, a, e1, e2.forward, x3 hne, OwnRing.destruct_ub (x3 hne) _ _⟩

example := C205_moved_ub 2 [.give, .emplace, .pop] (by decide)

end Flame
