import Verif.Vector.Lemmas
import Verif.Array.Lemmas

/-!
# Element operations that throw (include/FlameIDE/Templates/Vector.hpp, Array.hpp; include/FlameIDE/Common/Utils.hpp)

The library is compiled with exceptions enabled and none of `insert`, `emplace`, `erase`, `pushBack` is `noexcept`, so an exception
thrown by an element's assignment reaches the caller.  Constructions go through `emplaceNew`/`placementNew` (Utils.hpp 356-376), which are
`noexcept`: an element's constructor that throws there ends the program (`std::terminate`).

`k` counts the operations of the element type (constructions and assignments) that still succeed; the next one throws.
Simplifications: the element type is not trivial; an assignment that throws leaves both operands as they were; destructors do not throw.
-/

namespace Flame
namespace Thr
variable {α : Type u}

/-- How a call ends: it returns, an exception leaves it, the program is terminated, undefined behaviour, no return. -/
inductive Out (σ : Type u) where
  | done (s : σ)
  | threw (s : σ)
  | died
  | ub
  | loop
  deriving Repr, DecidableEq

/-- Storage together with the number of element operations that still succeed. -/
abbrev St (α : Type u) := Out (Cells α × ULift.{u} Nat)

/-- Sequencing: an exception skips the rest. -/
def St.andThen (o : St α) (f : Nat → Cells α → St α) : St α :=
  match o with
  | .done (b, k) => f k.down b
  | o => o

/-- Utils.hpp 356-361: `emplaceNew<Type>(p)` is `noexcept`. -/
def constructJunkT (k : Nat) (b : Cells α) (i : Nat) : St α :=
  match b.constructJunk i with
  | .ok b' => match k with
    | 0 => .died
    | k + 1 => .done (b', ⟨k⟩)
  | .ub => .ub
  | .loop => .loop

/-- Utils.hpp 356-376: construction from a value is `noexcept`. -/
def constructT (k : Nat) (b : Cells α) (i : Nat) (x : α) : St α :=
  match b.construct i x with
  | .ok b' => match k with
    | 0 => .died
    | k + 1 => .done (b', ⟨k⟩)
  | .ub => .ub
  | .loop => .loop

/-- `*it = object`. -/
def assignT (k : Nat) (b : Cells α) (i : Nat) (x : α) : St α :=
  match b.assign false i x with
  | .ok b' => match k with
    | 0 => .threw (b, ⟨0⟩)
    | k + 1 => .done (b', ⟨k⟩)
  | .ub => .ub
  | .loop => .loop

/-- `*itNew = move(*itOld)`. -/
def moveT (k : Nat) (b : Cells α) (src dst : Nat) : St α :=
  match b.moveCell false src dst with
  | .ok b' => match k with
    | 0 => .threw (b, ⟨0⟩)
    | k + 1 => .done (b', ⟨k⟩)
  | .ub => .ub
  | .loop => .loop

/-- Vector.hpp 822-824, Array.hpp 877-880: default construct the cells behind the end. -/
def junkRangeT (k : Nat) (b : Cells α) (i : Nat) : Nat → St α
  | 0 => .done (b, ⟨k⟩)
  | n + 1 => (constructJunkT k b i).andThen fun k b => junkRangeT k b (i + 1) n

/-- Vector.hpp 759-761, 829-831, Array.hpp 822-825: the backward loop. -/
def shiftUpT (k : Nat) (b : Cells α) (pos d : Nat) : Nat → St α
  | 0 => .done (b, ⟨k⟩)
  | n + 1 => (moveT k b (pos + n) (pos + n + d)).andThen fun k b => shiftUpT k b pos d n

/-- Vector.hpp 891-893, Array.hpp 941-944: the forward loop. -/
def shiftDownT (k : Nat) (b : Cells α) (src dst : Nat) : Nat → St α
  | 0 => .done (b, ⟨k⟩)
  | n + 1 => (moveT k b src dst).andThen fun k b => shiftDownT k b (src + 1) (dst + 1) n

/-- Vector.hpp 833-837, Array.hpp 891-895: assign the inserted values. -/
def assignListT (k : Nat) (b : Cells α) (i : Nat) : List α → St α
  | [] => .done (b, ⟨k⟩)
  | x :: xs => (assignT k b i x).andThen fun k b => assignListT k b (i + 1) xs

/-- Vector.hpp 755-763 and 821-837, Array.hpp 817-828 and 876-895: the storage part of an insertion before the end: construct behind the
end, move up, assign. -/
def insertCells (k : Nat) (b : Cells α) (size pos : Nat) (xs : List α) : St α :=
  ((junkRangeT k b size xs.length).andThen fun k b => shiftUpT k b pos xs.length (size - pos)).andThen
    fun k b => assignListT k b pos xs

/-- Vector.hpp 857-868 (`emplace`): construct behind the end,
move up, construct at the place. -/
def emplaceCells (k : Nat) (b : Cells α) (size pos : Nat) (x : α) : St α :=
  ((constructJunkT k b size).andThen fun k b => shiftUpT k b pos 1 (size - pos)).andThen fun k b => constructT k b pos x

/-- What remains of a vector when the storage part ends in `o`: `tail` moves to `size` only after the last step (764, 838, 869, 894). -/
def finishVec (v : Vec α) (size : Nat) : St α → Out (Vec α)
  | .done (b, _) => .done { v with buf := b, size := size }
  | .threw (b, _) => .threw { v with buf := b }
  | .died => .died
  | .ub => .ub
  | .loop => .loop

/-- Vector.hpp 698-711: `pushBack`, with room (growing is `realloc`, which runs no element operation). -/
def pushBack (can : Nat → Bool) (k : Nat) : Nat → Vec α → α → Out (Vec α)
  | 0, _, _ => .loop
  | f + 1, v, x =>
    if v.size ≠ v.cap then finishVec v (v.size + 1) (constructT k v.buf v.size x)
    else pushBack can k f (v.reserve can v.nextCap) x

/-- Vector.hpp 745-773. -/
def insert (can : Nat → Bool) (k : Nat) : Nat → Vec α → Nat → α → Out (Vec α)
  | 0, _, _, _ => .loop
  | f + 1, v, pos, x =>
    if v.size < pos then .ub
    else if v.size < v.cap then
      if pos = v.size then pushBack can k f v x
      else finishVec v (v.size + 1) (insertCells k v.buf v.size pos [x])
    else insert can k f (v.reserve can v.nextCap) pos x

/-- Vector.hpp 849-878. -/
def emplace (can : Nat → Bool) (k : Nat) : Nat → Vec α → Nat → α → Out (Vec α)
  | 0, _, _, _ => .loop
  | f + 1, v, pos, x =>
    if v.size < pos then .ub
    else if v.size < v.cap then
      if pos = v.size then pushBack can k f v x
      else finishVec v (v.size + 1) (emplaceCells k v.buf v.size pos x)
    else emplace can k f (v.reserve can v.nextCap) pos x

/-- Vector.hpp 817-819: a loop of `pushBack`, each of which runs one element operation. -/
def pushBackList (can : Nat → Bool) (f : Nat) : Nat → Vec α → List α → Out (Vec α)
  | _, v, [] => .done v
  | k, v, x :: xs => match pushBack can k f v x with
    | .done v => pushBackList can f (k - 1) v xs
    | o => o

/-- Vector.hpp 806-847. -/
def insertRange (can : Nat → Bool) (k : Nat) : Nat → Vec α → Nat → List α → Out (Vec α)
  | 0, _, _, _ => .loop
  | f + 1, v, pos, xs =>
    if v.size < pos then .ub
    else if xs.length = 0 then .done v
    else if xs.length + v.size ≤ v.cap then
      if pos = v.size then pushBackList can f k v xs
      else finishVec v (v.size + xs.length) (insertCells k v.buf v.size pos xs)
    else insertRange can k f (v.reserve can (v.cap + xs.length)) pos xs

/-- Vector.hpp 880-896. -/
def erase (k : Nat) (v : Vec α) (pos : Nat) : Out (Vec α) :=
  if v.size < pos then .ub
  else if pos = v.size then .done v
  else if pos + 1 = v.size then
    match v.popBack false with
    | .ok v => .done v
    | .ub => .ub
    | .loop => .loop
  else finishVec v (v.size - 1) (shiftDownT k v.buf (pos + 1) pos (v.size - (pos + 1)))

/-! ## What one storage step does -/

/-- Storage that agrees with `b₀` outside `[lo, hi)` and holds objects in all of `[lo, hi)`. -/
structure Within (b₀ b : Cells α) (lo hi : Nat) : Prop where
  len : b.length = b₀.length
  out : ∀ i, i < lo ∨ hi ≤ i → b[i]? = b₀[i]?
  live : ∀ i, lo ≤ i → i < hi → ∃ c, b[i]? = some c ∧ c.isLive = true

theorem Within.set {b₀ b : Cells α} {lo hi i : Nat} {c : Cell α} (h : Within b₀ b lo hi) (h1 : lo ≤ i) (h2 : i < hi)
    (hc : c.isLive = true) : Within b₀ (b.set i c) lo hi := by
  have hl : i < b.length := by
    obtain ⟨c', e, _⟩ := h.live i h1 h2
    exact (List.getElem?_eq_some_iff.1 e).1
  refine ⟨by simp [h.len], fun j hj => ?_, fun j hj1 hj2 => ?_⟩
  · rw [List.getElem?_set_ne (by omega), h.out j hj]
  · by_cases e : i = j
    · subst e; exact ⟨c, by rw [List.getElem?_set_self hl], hc⟩
    · rw [List.getElem?_set_ne e]; exact h.live j hj1 hj2

theorem within_assign {b₀ b b' : Cells α} {lo hi i : Nat} {x : α} (h : Within b₀ b lo hi) (h1 : lo ≤ i) (h2 : i < hi)
    (e : b.assign false i x = .ok b') : Within b₀ b' lo hi := by
  unfold Cells.assign at e
  split at e <;> simp at e
  subst e
  exact h.set h1 h2 rfl

theorem within_move {b₀ b b' : Cells α} {lo hi s d : Nat} (h : Within b₀ b lo hi) (h1 : lo ≤ s) (h2 : s < hi) (h3 : lo ≤ d)
    (h4 : d < hi) (e : b.moveCell false s d = .ok b') : Within b₀ b' lo hi := by
  unfold Cells.moveCell at e
  cases hg : b.get s <;> rw [hg] at e <;> simp at e
  exact within_assign (h.set h1 h2 rfl) h3 h4 e

/-- Both results of an interruptible step stay within the window. -/
def StWithin (b₀ : Cells α) (o : St α) (lo hi : Nat) : Prop :=
  ∀ b k, o = .done (b, k) ∨ o = .threw (b, k) → Within b₀ b lo hi

theorem stWithin_andThen {b₀ : Cells α} {o : St α} {f : Nat → Cells α → St α} {lo hi : Nat} (h : StWithin b₀ o lo hi)
    (hf : ∀ k b, Within b₀ b lo hi → StWithin b₀ (f k b) lo hi) : StWithin b₀ (o.andThen f) lo hi := by
  intro b k hb
  cases o with
  | done p =>
    obtain ⟨b1, k1⟩ := p
    exact hf k1.down b1 (h b1 k1 (Or.inl rfl)) b k hb
  | threw p => simp only [St.andThen] at hb; exact h b k hb
  | _ => simp [St.andThen] at hb

theorem moveT_within {b₀ b : Cells α} {lo hi s d k : Nat} (h : Within b₀ b lo hi) (h1 : lo ≤ s) (h2 : s < hi) (h3 : lo ≤ d)
    (h4 : d < hi) : StWithin b₀ (moveT k b s d) lo hi := by
  intro b' k' e
  unfold moveT at e
  cases hm : b.moveCell false s d <;> rw [hm] at e <;> cases k <;> simp at e
  · obtain ⟨rfl, _⟩ := e; exact h
  · obtain ⟨rfl, _⟩ := e; exact within_move h h1 h2 h3 h4 hm

theorem assignT_within {b₀ b : Cells α} {lo hi i k : Nat} {x : α} (h : Within b₀ b lo hi) (h1 : lo ≤ i) (h2 : i < hi) :
    StWithin b₀ (assignT k b i x) lo hi := by
  intro b' k' e
  unfold assignT at e
  cases hm : b.assign false i x <;> rw [hm] at e <;> cases k <;> simp at e
  · obtain ⟨rfl, _⟩ := e; exact h
  · obtain ⟨rfl, _⟩ := e; exact within_assign h h1 h2 hm

theorem shiftUpT_within {b₀ : Cells α} {lo hi pos d : Nat} (n : Nat) : ∀ {b : Cells α} {k : Nat}, Within b₀ b lo hi → lo ≤ pos →
    pos + n + d ≤ hi → StWithin b₀ (shiftUpT k b pos d n) lo hi := by
  induction n with
  | zero =>
    intro b k h _ _ b' k' e
    simp [shiftUpT] at e
    obtain ⟨rfl, _⟩ := e; exact h
  | succ n ih =>
    intro b k h h1 h2
    exact stWithin_andThen (moveT_within h (by omega) (by omega) (by omega) (by omega)) fun k b hw => ih hw h1 (by omega)

theorem shiftDownT_within {b₀ : Cells α} {lo hi : Nat} (n : Nat) : ∀ {b : Cells α} {k s d : Nat}, Within b₀ b lo hi → lo ≤ s → lo ≤ d →
    s + n ≤ hi → d + n ≤ hi → StWithin b₀ (shiftDownT k b s d n) lo hi := by
  induction n with
  | zero =>
    intro b k s d h _ _ _ _ b' k' e
    simp [shiftDownT] at e
    obtain ⟨rfl, _⟩ := e; exact h
  | succ n ih =>
    intro b k s d h h1 h2 h3 h4
    exact stWithin_andThen (moveT_within h (by omega) (by omega) (by omega) (by omega))
      fun k b hw => ih hw (by omega) (by omega) (by omega) (by omega)

theorem assignListT_within {b₀ : Cells α} {lo hi : Nat} (xs : List α) : ∀ {b : Cells α} {k i : Nat}, Within b₀ b lo hi → lo ≤ i →
    i + xs.length ≤ hi → StWithin b₀ (assignListT k b i xs) lo hi := by
  induction xs with
  | nil =>
    intro b k i h _ _ b' k' e
    simp [assignListT] at e
    obtain ⟨rfl, _⟩ := e; exact h
  | cons x xs ih =>
    intro b k i h h1 h2
    simp only [List.length_cons] at h2
    exact stWithin_andThen (assignT_within h h1 (by omega)) fun k b hw => ih hw (by omega) (by omega)

/-! ## How many element operations a step takes -/

theorem junkRangeT_ok (n : Nat) : ∀ {b b' : Cells α} {i : Nat} (k : Nat), b.junkRange i n = .ok b' →
    (k < n → junkRangeT k b i n = .died) ∧ (n ≤ k → junkRangeT k b i n = .done (b', ⟨k - n⟩)) := by
  induction n with
  | zero => intro b b' i k e; simp [Cells.junkRange] at e; subst e; exact ⟨fun h => by omega, fun _ => rfl⟩
  | succ n ih =>
    intro b b' i k e
    simp only [Cells.junkRange] at e
    cases hc : b.constructJunk i <;> rw [hc] at e <;> simp at e
    cases k with
    | zero => exact ⟨fun _ => by simp [junkRangeT, constructJunkT, hc, St.andThen], fun h => by omega⟩
    | succ k =>
      have := ih k e
      simp only [junkRangeT, constructJunkT, hc, St.andThen, Nat.add_sub_add_right]
      exact ⟨fun h => this.1 (by omega), fun h => this.2 (by omega)⟩

theorem shiftUpT_ok (n : Nat) : ∀ {b b' : Cells α} {pos d : Nat} (k : Nat), b.shiftUp false pos d n = .ok b' →
    (k < n → ∃ c, shiftUpT k b pos d n = .threw (c, ⟨0⟩)) ∧ (n ≤ k → shiftUpT k b pos d n = .done (b', ⟨k - n⟩)) := by
  induction n with
  | zero => intro b b' pos d k e; simp [Cells.shiftUp] at e; subst e; exact ⟨fun h => by omega, fun _ => rfl⟩
  | succ n ih =>
    intro b b' pos d k e
    simp only [Cells.shiftUp] at e
    cases hc : b.moveCell false (pos + n) (pos + n + d) <;> rw [hc] at e <;> simp at e
    cases k with
    | zero => exact ⟨fun _ => ⟨b, by simp [shiftUpT, moveT, hc, St.andThen]⟩, fun h => by omega⟩
    | succ k =>
      have := ih k e
      simp only [shiftUpT, moveT, hc, St.andThen, Nat.add_sub_add_right]
      exact ⟨fun h => this.1 (by omega), fun h => this.2 (by omega)⟩

theorem shiftDownT_ok (n : Nat) : ∀ {b b' : Cells α} {s d : Nat} (k : Nat), b.shiftDown false s d n = .ok b' →
    (k < n → ∃ c, shiftDownT k b s d n = .threw (c, ⟨0⟩)) ∧ (n ≤ k → shiftDownT k b s d n = .done (b', ⟨k - n⟩)) := by
  induction n with
  | zero => intro b b' s d k e; simp [Cells.shiftDown] at e; subst e; exact ⟨fun h => by omega, fun _ => rfl⟩
  | succ n ih =>
    intro b b' s d k e
    simp only [Cells.shiftDown] at e
    cases hc : b.moveCell false s d <;> rw [hc] at e <;> simp at e
    cases k with
    | zero => exact ⟨fun _ => ⟨b, by simp [shiftDownT, moveT, hc, St.andThen]⟩, fun h => by omega⟩
    | succ k =>
      have := ih k e
      simp only [shiftDownT, moveT, hc, St.andThen, Nat.add_sub_add_right]
      exact ⟨fun h => this.1 (by omega), fun h => this.2 (by omega)⟩

theorem assignListT_ok (xs : List α) : ∀ {b b' : Cells α} {i : Nat} (k : Nat), b.assignList false i xs = .ok b' →
    (k < xs.length → ∃ c, assignListT k b i xs = .threw (c, ⟨0⟩)) ∧
    (xs.length ≤ k → assignListT k b i xs = .done (b', ⟨k - xs.length⟩)) := by
  induction xs with
  | nil => intro b b' i k e; simp [Cells.assignList] at e; subst e; exact ⟨fun h => by simp at h, fun _ => rfl⟩
  | cons x xs ih =>
    intro b b' i k e
    simp only [Cells.assignList] at e
    cases hc : b.assign false i x <;> rw [hc] at e <;> simp at e
    cases k with
    | zero => exact ⟨fun _ => ⟨b, by simp [assignListT, assignT, hc, St.andThen]⟩, fun h => by simp at h⟩
    | succ k =>
      have := ih k e
      simp only [assignListT, assignT, hc, St.andThen, List.length_cons, Nat.add_sub_add_right]
      exact ⟨fun h => this.1 (by omega), fun h => this.2 (by omega)⟩

/-! ## The insertion -/

theorem insertCells_ok {v : Vec α} {l xs : List α} (h : Vec.Rep v l) {p : Nat} (hp : p < v.size) (hx : 0 < xs.length)
    (hd : xs.length + v.size ≤ v.cap) (k : Nat) :
    (k < xs.length → insertCells k v.buf v.size p xs = .died) ∧
    (xs.length ≤ k → k < xs.length + (v.size - p) + xs.length →
      ∃ c, insertCells k v.buf v.size p xs = .threw (c, ⟨0⟩) ∧ Within v.buf c p (v.size + xs.length)) ∧
    (xs.length + (v.size - p) + xs.length ≤ k → ∃ R k', insertCells k v.buf v.size p xs =
      .done ((l.take p ++ xs ++ l.drop p).map .live ++ R, k') ∧ (Vec.NoStray v → ∀ c ∈ R, c = .raw) ∧
      v.cap = v.size + xs.length + R.length) := by
  obtain ⟨b1, b2, R, e1, e2, e3, e4, hn⟩ := Vec.shiftIn_ok (triv := false) (xs := xs) h (Nat.le_of_lt hp) hx hd
  have h2 := h.2.1
  have e5 : b2.assignList false p xs = .ok ((l.take p ++ xs ++ l.drop p).map .live ++ R) := by
    rw [e3, Cells.assignList_append false (by simp [List.mem_replicate]) (by simp) (by simp; omega)]
    simp
  have hj := junkRangeT_ok xs.length k e1
  refine ⟨fun hk => by rw [insertCells, hj.1 hk]; rfl, fun hk1 hk2 => ?_, fun hk => ?_⟩
  · have hw1 : Within v.buf b1 p (v.size + xs.length) := by
      obtain ⟨_, _, S, h3⟩ := h
      rw [h3] at e1
      have hlS : xs.length ≤ S.length := by
        have : v.buf.length = l.length + S.length := by rw [h3]; simp
        omega
      obtain ⟨S1, S2, rfl, hS1⟩ : ∃ S1 S2, S = S1 ++ S2 ∧ S1.length = xs.length :=
        ⟨S.take xs.length, S.drop xs.length, by simp, by simp; omega⟩
      have : b1 = l.map .live ++ (List.replicate xs.length .junk ++ S2) := by
        have := Cells.junkRange_append (A := l.map .live) (M := S1) (R := S2) (i := v.size) (by simp [h2])
        rw [hS1] at this
        rw [this] at e1
        simpa using e1.symm
      subst this
      refine ⟨by rw [h3]; simp [hS1], fun i hi => ?_, fun i hi1 hi2 => ?_⟩
      · rw [h3]
        by_cases hil : i < l.length
        · rw [List.getElem?_append_left (by simpa using hil), List.getElem?_append_left (by simpa using hil)]
        · rw [List.getElem?_append_right (by simp; omega), List.getElem?_append_right (by simp; omega),
            List.getElem?_append_right (by simp; omega), List.getElem?_append_right (by simp; omega)]
          simp [hS1]
      · by_cases hil : i < l.length
        · refine ⟨.live l[i], ?_, rfl⟩
          rw [List.getElem?_append_left (by simpa using hil)]
          simp [hil]
        · refine ⟨.junk, ?_, rfl⟩
          rw [List.getElem?_append_right (by simp; omega), List.getElem?_append_left (by simp; omega),
            List.getElem?_replicate, if_pos (by simp; omega)]
    have hs := shiftUpT_ok (v.size - p) (k - xs.length) e2
    have hsw : StWithin v.buf (shiftUpT (k - xs.length) b1 p xs.length (v.size - p)) p (v.size + xs.length) :=
      shiftUpT_within _ hw1 (Nat.le_refl _) (by omega)
    by_cases hks : k - xs.length < v.size - p
    · obtain ⟨c, hc⟩ := hs.1 hks
      exact ⟨c, by rw [insertCells, hj.2 hk1]; simp only [St.andThen]; rw [hc], hsw c _ (Or.inr hc)⟩
    · have hd := hs.2 (by omega)
      have hw2 := hsw b2 _ (Or.inl hd)
      have ha := assignListT_ok xs (k - xs.length - (v.size - p)) e5
      obtain ⟨c, hc⟩ := ha.1 (by omega)
      refine ⟨c, by rw [insertCells, hj.2 hk1]; simp only [St.andThen]; rw [hd]; exact hc, ?_⟩
      exact assignListT_within xs hw2 (Nat.le_refl _) (by omega) c _ (Or.inr hc)
  · have hs := (shiftUpT_ok (v.size - p) (k - xs.length) e2).2 (by omega)
    have ha := (assignListT_ok xs (k - xs.length - (v.size - p)) e5).2 (by omega)
    refine ⟨R, ⟨k - xs.length - (v.size - p) - xs.length⟩, ?_, hn, ?_⟩
    · rw [insertCells, hj.2 (by omega)]; simp only [St.andThen]; rw [hs]; exact ha
    · rw [h.1, e4]; omega

/-! ## Destroying storage -/

theorem destroyRange_live (n : Nat) : ∀ {b : Cells α} {i : Nat}, (∀ j, i ≤ j → j < i + n → ∃ c, b[j]? = some c ∧ c.isLive = true) →
    ∃ b', b.destroyRange false i n = .ok b' ∧ b'.length = b.length ∧ ∀ j, b'[j]? = if i ≤ j ∧ j < i + n then some .raw else b[j]? := by
  induction n with
  | zero => intro b i _; exact ⟨b, rfl, rfl, fun j => by rw [if_neg (by omega)]⟩
  | succ n ih =>
    intro b i h
    obtain ⟨c, hc, hl⟩ := h i (Nat.le_refl _) (by omega)
    have hib := (List.getElem?_eq_some_iff.1 hc).1
    have hd : b.destroy false i = .ok (b.set i .raw) := by
      unfold Cells.destroy; rw [hc]
      cases c <;> simp_all [Cell.isLive]
    obtain ⟨b', e1, e2, e3⟩ := ih (b := b.set i .raw) (i := i + 1) (by
      intro j hj1 hj2
      rw [List.getElem?_set_ne (by omega)]
      exact h j (by omega) (by omega))
    refine ⟨b', by simp [Cells.destroyRange, hd, e1], by simp [e2], fun j => ?_⟩
    rw [e3]
    by_cases hj : i = j
    · subst hj; rw [if_neg (by omega), if_pos (by omega), List.getElem?_set_self hib]
    · rw [List.getElem?_set_ne hj]
      by_cases hj2 : i + 1 ≤ j ∧ j < i + 1 + n
      · rw [if_pos hj2, if_pos (by omega)]
      · rw [if_neg hj2, if_neg (by omega)]

theorem countP_window {b : Cells α} (n d : Nat) (h1 : ∀ j, j < n → b[j]? = some .raw)
    (h2 : ∀ j, n ≤ j → j < n + d → ∃ c, b[j]? = some c ∧ c.isLive = true)
    (h3 : ∀ j, n + d ≤ j → b[j]? = none ∨ b[j]? = some .raw) : b.countP Cell.isLive = d := by
  induction b generalizing n d with
  | nil =>
    cases d with
    | zero => rfl
    | succ d => obtain ⟨c, hc, _⟩ := h2 n (Nat.le_refl _) (by omega); simp at hc
  | cons c b ih =>
    cases n with
    | succ n =>
      have h0 := h1 0 (by omega)
      simp at h0; subst h0
      have := ih n d (fun j hj => by simpa using h1 (j + 1) (by omega))
        (fun j hj1 hj2 => by simpa using h2 (j + 1) (by omega) (by omega)) (fun j hj => by simpa using h3 (j + 1) (by omega))
      rw [List.countP_cons, this]; simp [Cell.isLive]
    | zero =>
      cases d with
      | zero =>
        have h0 := h3 0 (by omega)
        simp at h0; subst h0
        have := ih 0 0 (fun j hj => by omega) (fun j hj1 hj2 => by omega) (fun j hj => by simpa using h3 (j + 1) (by omega))
        rw [List.countP_cons, this]; simp [Cell.isLive]
      | succ d =>
        obtain ⟨c', hc, hl⟩ := h2 0 (Nat.le_refl _) (by omega)
        simp at hc; subst hc
        have := ih 0 d (fun j hj => by omega) (fun j hj1 hj2 => by simpa using h2 (j + 1) (by omega) (by omega))
          (fun j hj => by simpa using h3 (j + 1) (by omega))
        rw [List.countP_cons, this]; simp [hl]

end Thr
end Flame
