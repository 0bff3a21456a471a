import Verif.Basic

/-!
# Contiguous storage

An allocation is a list of cells; pointers into it are indices.  A cell is raw storage, a live object with an
unspecified value (default constructed or moved from), or a live object with a known value.  Every access is
checked and an illegal one is `Res.ub`.

`triv` says whether the element type is trivially destructible/assignable (e.g. integers): for such types assigning to
storage whose object was destroyed, or destroying twice, is harmless; for other types it is undefined behaviour.
-/

namespace Flame

/-- One element slot of an allocation. -/
inductive Cell (α : Type u) where
  | raw
  | junk
  | live (a : α)
  deriving Repr, DecidableEq

/-- Does the slot hold a (possibly moved-from) object? -/
def Cell.isLive {α : Type u} : Cell α → Bool
  | .raw => false
  | _ => true

/-- An allocation. -/
abbrev Cells (α : Type u) := List (Cell α)

namespace Cells
variable {α : Type u}

/-- Read the value of the object at `i`.  Reading raw storage, out of bounds, or a moved-from value is `ub`. -/
def get (b : Cells α) (i : Nat) : Res α :=
  match b[i]? with
  | some (.live a) => .ok a
  | _ => .ub

/-- Placement-new of a value at `i`. -/
def construct (b : Cells α) (i : Nat) (a : α) : Res (Cells α) :=
  if i < b.length then .ok (b.set i (.live a)) else .ub

/-- Placement-new with default (unspecified) value at `i`. -/
def constructJunk (b : Cells α) (i : Nat) : Res (Cells α) :=
  if i < b.length then .ok (b.set i .junk) else .ub

/-- Assignment `*p = a`: needs a live object unless the type is trivial. -/
def assign (triv : Bool) (b : Cells α) (i : Nat) (a : α) : Res (Cells α) :=
  match b[i]? with
  | some .raw => if triv then .ok (b.set i (.live a)) else .ub
  | some _ => .ok (b.set i (.live a))
  | none => .ub

/-- Destructor call on the object at `i`. -/
def destroy (triv : Bool) (b : Cells α) (i : Nat) : Res (Cells α) :=
  match b[i]? with
  | some .raw => if triv then .ok b else .ub
  | some _ => .ok (b.set i .raw)
  | none => .ub

/-- `*dst = move(*src)`: the source object stays live with unspecified value. -/
def moveCell (triv : Bool) (b : Cells α) (src dst : Nat) : Res (Cells α) := do
  let a ← b.get src
  assign triv (b.set src .junk) dst a

/-- Backward loop `for k = n-1 .. 0: *(pos+k+d) = move(*(pos+k))`. -/
def shiftUp (triv : Bool) (b : Cells α) (pos d : Nat) : Nat → Res (Cells α)
  | 0 => .ok b
  | n + 1 => do
    let b ← moveCell triv b (pos + n) (pos + n + d)
    shiftUp triv b pos d n

/-- Forward loop `for k = 0 .. n-1: *(dst+k) = move(*(src+k))`. -/
def shiftDown (triv : Bool) (b : Cells α) (src dst : Nat) : Nat → Res (Cells α)
  | 0 => .ok b
  | n + 1 => do
    let b ← moveCell triv b src dst
    shiftDown triv b (src + 1) (dst + 1) n

/-- Forward loop of destructor calls on `[i, i+n)`. -/
def destroyRange (triv : Bool) (b : Cells α) (i : Nat) : Nat → Res (Cells α)
  | 0 => .ok b
  | n + 1 => do
    let b ← destroy triv b i
    destroyRange triv b (i + 1) n

/-- Forward loop of default constructions on `[i, i+n)`. -/
def junkRange (b : Cells α) (i : Nat) : Nat → Res (Cells α)
  | 0 => .ok b
  | n + 1 => do
    let b ← constructJunk b i
    junkRange b (i + 1) n

/-- Forward loop of assignments of the given values starting at `i`. -/
def assignList (triv : Bool) (b : Cells α) (i : Nat) : List α → Res (Cells α)
  | [] => .ok b
  | x :: xs => do
    let b ← assign triv b i x
    assignList triv b (i + 1) xs

/-- Forward loop of placement-news of the given values starting at `i`. -/
def constructList (b : Cells α) (i : Nat) : List α → Res (Cells α)
  | [] => .ok b
  | x :: xs => do
    let b ← construct b i x
    constructList b (i + 1) xs

/-- Reading `n` elements from index `i` on. -/
def getRange (b : Cells α) (i : Nat) : Nat → Res (List α)
  | 0 => .ok []
  | n + 1 => do
    let a ← b.get i
    let r ← getRange b (i + 1) n
    .ok (a :: r)

/-! ## Lemmas -/

theorem get_append {A : Cells α} {a : α} {R : Cells α} {i : Nat} (h : i = A.length) :
    get (A ++ .live a :: R) i = .ok a := by
  subst h; simp [get]

theorem construct_append {A : Cells α} {c : Cell α} {R : Cells α} {i : Nat} (a : α) (h : i = A.length) :
    construct (A ++ c :: R) i a = .ok (A ++ .live a :: R) := by
  subst h; simp [construct]

theorem constructJunk_ub {b : Cells α} {i : Nat} (h : b.length ≤ i) : b.constructJunk i = .ub := by simp [constructJunk, Nat.not_lt.mpr h]

theorem constructJunk_append {A : Cells α} {c : Cell α} {R : Cells α} {i : Nat} (h : i = A.length) :
    constructJunk (A ++ c :: R) i = .ok (A ++ .junk :: R) := by
  subst h; simp [constructJunk]

theorem assign_append {A : Cells α} {c : Cell α} {R : Cells α} {i : Nat} {t : Bool} (a : α) (h : i = A.length)
    (hc : t = true ∨ c ≠ .raw) :
    assign t (A ++ c :: R) i a = .ok (A ++ .live a :: R) := by
  subst h
  cases c <;> simp_all [assign]

theorem destroy_append {A : Cells α} {c : Cell α} {R : Cells α} {i : Nat} {t : Bool} (h : i = A.length)
    (hc : t = true ∨ c ≠ .raw) :
    destroy t (A ++ c :: R) i = .ok (A ++ .raw :: R) := by
  subst h
  cases c <;> simp_all [destroy]

/-- Moving an object up over a gap of default-constructed objects. -/
theorem moveCell_up {A R : Cells α} {x : α} {d i j : Nat} (t : Bool) (hd : 0 < d) (hi : i = A.length)
    (hj : j = A.length + d) :
    moveCell t (A ++ .live x :: (List.replicate d .junk ++ R)) i j =
      .ok (A ++ (List.replicate d .junk ++ .live x :: R)) := by
  subst hi
  obtain ⟨d, rfl⟩ : ∃ e, d = e + 1 := ⟨d - 1, by omega⟩
  unfold moveCell
  rw [get_append rfl]
  simp only [Res.ok_bind]
  have h1 : (A ++ Cell.live x :: (List.replicate (d + 1) .junk ++ R)).set A.length .junk
      = (A ++ List.replicate (d + 1) .junk) ++ Cell.junk :: R := by
    simp [List.replicate_succ']
    rw [← List.cons_append, ← List.replicate_succ, List.replicate_succ', List.append_assoc]
    simp
  rw [h1, assign_append x (by simp [hj]) (by simp)]
  simp

theorem shiftUp_append {A R : Cells α} {M : List α} {d pos : Nat} (t : Bool) (hd : 0 < d) (hp : pos = A.length) :
    shiftUp t (A ++ (M.map .live ++ (List.replicate d .junk ++ R))) pos d M.length =
      .ok (A ++ (List.replicate d .junk ++ (M.map .live ++ R))) := by
  induction M using snocInduction generalizing R with
  | nil => simp [shiftUp]
  | snoc M x ih =>
    simp only [List.length_append, List.length_singleton, shiftUp, List.map_append, List.map_cons, List.map_nil]
    have h1 : A ++ (List.map Cell.live M ++ [Cell.live x] ++ (List.replicate d Cell.junk ++ R))
        = (A ++ List.map Cell.live M) ++ Cell.live x :: (List.replicate d Cell.junk ++ R) := by simp
    rw [h1, moveCell_up t hd (by simp [hp]) (by simp [hp])]
    simp only [Res.ok_bind, List.append_assoc]
    rw [ih]
    simp

/-- Moving the objects of `M` down over a non-empty gap `C` of assignable cells. -/
theorem shiftDown_append {A C R : Cells α} {M : List α} {src dst : Nat} (t : Bool) (hC : 0 < C.length)
    (hc : t = true ∨ ∀ c ∈ C, c ≠ .raw) (hs : src = A.length + C.length) (hd : dst = A.length) :
    ∃ C' : Cells α, C'.length = C.length ∧ (∀ c ∈ C', c = .junk ∨ c ∈ C) ∧
      shiftDown t (A ++ (C ++ (M.map .live ++ R))) src dst M.length = .ok (A ++ (M.map .live ++ (C' ++ R))) := by
  induction M generalizing A C src dst with
  | nil => exact ⟨C, rfl, fun c h => Or.inr h, by simp [shiftDown]⟩
  | cons x M ih =>
    subst hs hd
    obtain ⟨c, C, rfl⟩ : ∃ c C0, C = c :: C0 := by
      cases C with
      | nil => simp at hC
      | cons c C => exact ⟨c, C, rfl⟩
    have hstep : moveCell t (A ++ (c :: C ++ (List.map Cell.live (x :: M) ++ R))) (A.length + (c :: C).length) A.length
        = .ok ((A ++ [Cell.live x]) ++ ((C ++ [Cell.junk]) ++ (List.map Cell.live M ++ R))) := by
      unfold moveCell
      have e1 : A ++ (c :: C ++ (List.map Cell.live (x :: M) ++ R))
          = (A ++ c :: C) ++ Cell.live x :: (List.map Cell.live M ++ R) := by simp
      rw [e1, get_append (by simp)]
      simp only [Res.ok_bind]
      have e2 : ((A ++ c :: C) ++ Cell.live x :: (List.map Cell.live M ++ R)).set (A.length + (c :: C).length) .junk
          = A ++ c :: (C ++ Cell.junk :: (List.map Cell.live M ++ R)) := by
        rw [show A.length + (c :: C).length = (A ++ c :: C).length by simp]
        simp
      rw [e2, assign_append x rfl]
      · simp
      · rcases hc with h | h
        · exact Or.inl h
        · exact Or.inr (h c (by simp))
    obtain ⟨C', h1, h2, h3⟩ := ih (A := A ++ [Cell.live x]) (C := C ++ [Cell.junk])
      (src := A.length + (c :: C).length + 1) (dst := A.length + 1) (by simp)
      (by
        rcases hc with h | h
        · exact Or.inl h
        · refine Or.inr ?_
          intro c' hc'
          rcases List.mem_append.1 hc' with h' | h'
          · exact h c' (by simp [h'])
          · simp at h'; simp [h'])
      (by simp; omega) (by simp)
    refine ⟨C', by simpa using h1, ?_, ?_⟩
    · intro c' hc'
      rcases h2 c' hc' with h | h
      · exact Or.inl h
      · rcases List.mem_append.1 h with h' | h'
        · exact Or.inr (by simp [h'])
        · simp at h'; exact Or.inl h'
    · simp only [List.length_cons, shiftDown]
      simp only [List.length_cons] at hstep
      rw [hstep]
      simp only [Res.ok_bind]
      simp only [List.length_cons] at h3
      rw [h3]
      simp

theorem destroyRange_append {A R : Cells α} {M : Cells α} {i : Nat} (t : Bool)
    (hM : t = true ∨ ∀ c ∈ M, c ≠ .raw) (hi : i = A.length) :
    destroyRange t (A ++ (M ++ R)) i M.length = .ok (A ++ (List.replicate M.length .raw ++ R)) := by
  induction M generalizing A i with
  | nil => simp [destroyRange]
  | cons c M ih =>
    simp only [List.length_cons, destroyRange, List.cons_append]
    rw [destroy_append hi (by rcases hM with h | h; exact Or.inl h; exact Or.inr (h c (by simp)))]
    simp only [Res.ok_bind]
    have := ih (A := A ++ [Cell.raw]) (i := i + 1) (by rcases hM with h | h; exact Or.inl h; exact Or.inr (fun c' h' => h c' (by simp [h']))) (by simp [hi])
    simp only [List.append_assoc, List.singleton_append] at this
    rw [this]
    simp [List.replicate_succ]

theorem junkRange_append {A R M : Cells α} {i : Nat} (hi : i = A.length) :
    junkRange (A ++ (M ++ R)) i M.length = .ok (A ++ (List.replicate M.length .junk ++ R)) := by
  induction M generalizing A i with
  | nil => simp [junkRange]
  | cons c M ih =>
    simp only [List.length_cons, junkRange, List.cons_append]
    rw [constructJunk_append hi]
    simp only [Res.ok_bind]
    have := ih (A := A ++ [Cell.junk]) (i := i + 1) (by simp [hi])
    simp only [List.append_assoc, List.singleton_append] at this
    rw [this]
    simp [List.replicate_succ]

theorem assignList_append {A R C : Cells α} {xs : List α} {i : Nat} (t : Bool)
    (hC : t = true ∨ ∀ c ∈ C, c ≠ .raw) (hl : C.length = xs.length) (hi : i = A.length) :
    assignList t (A ++ (C ++ R)) i xs = .ok (A ++ (xs.map .live ++ R)) := by
  induction xs generalizing A C i with
  | nil =>
    have : C = [] := by simpa using hl
    simp [assignList, this]
  | cons x xs ih =>
    cases C with
    | nil => simp at hl
    | cons c C =>
      simp only [assignList, List.cons_append]
      rw [assign_append x hi (by rcases hC with h | h; exact Or.inl h; exact Or.inr (h c (by simp)))]
      simp only [Res.ok_bind]
      have := ih (A := A ++ [Cell.live x]) (C := C) (i := i + 1)
        (by rcases hC with h | h; exact Or.inl h; exact Or.inr (fun c' h' => h c' (by simp [h'])))
        (by simpa using hl) (by simp [hi])
      simp only [List.append_assoc, List.singleton_append] at this
      rw [this]
      simp

theorem constructList_append {A R C : Cells α} {xs : List α} {i : Nat}
    (hl : C.length = xs.length) (hi : i = A.length) :
    constructList (A ++ (C ++ R)) i xs = .ok (A ++ (xs.map .live ++ R)) := by
  induction xs generalizing A C i with
  | nil =>
    have : C = [] := by simpa using hl
    simp [constructList, this]
  | cons x xs ih =>
    cases C with
    | nil => simp at hl
    | cons c C =>
      simp only [constructList, List.cons_append]
      rw [construct_append x hi]
      simp only [Res.ok_bind]
      have := ih (A := A ++ [Cell.live x]) (C := C) (i := i + 1)
        (by simpa using hl) (by simp [hi])
      simp only [List.append_assoc, List.singleton_append] at this
      rw [this]
      simp

theorem getRange_append {A R : Cells α} {xs : List α} {i : Nat} (hi : i = A.length) :
    getRange (A ++ (xs.map .live ++ R)) i xs.length = .ok xs := by
  induction xs generalizing A i with
  | nil => simp [getRange]
  | cons x xs ih =>
    simp only [List.length_cons, getRange, List.map_cons, List.cons_append]
    rw [get_append hi]
    simp only [Res.ok_bind]
    have := ih (A := A ++ [Cell.live x]) (i := i + 1) (by simp [hi])
    simp only [List.append_assoc, List.singleton_append] at this
    rw [this]
    simp

end Cells
end Flame
