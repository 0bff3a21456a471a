import Verif.Iter.Stack

/-!
# C187: comparing two iterators compares where they stand
-/

namespace Flame.IterStack
open TypeList (Ct)

/-- `n` times `++` leads from position `a` to position `b`. -/
def Steps (A : Ty) (n : Nat) (a b : Int) : Prop := Nat.repeat (A.step true) n a = b

/-- `a` is visited before `b`. -/
def Before (A : Ty) (a b : Int) : Prop := ∃ n, 0 < n ∧ Steps A n a b

/-- The direction of a stack. -/
def dir (A : Ty) : Int := if reverses A % 2 = 0 then 1 else -1

theorem dir_adapt (k : Kind) (t : Bool) (i : Ty) : dir (.adapt k t i) = if k.isReverse then -dir i else dir i := by
  have e : reverses (.adapt k t i) = reverses i + (if k.isReverse then 1 else 0) := rfl
  unfold dir
  rw [e]
  by_cases hk : k.isReverse = true
  · simp only [hk, if_true]
    by_cases h : reverses i % 2 = 0
    · rw [if_neg (by omega), if_pos h]
    · rw [if_pos (by omega), if_neg h]; rfl
  · simp [hk]

theorem dir_cases (A : Ty) : dir A = 1 ∨ dir A = -1 := by unfold dir; split <;> simp

theorem step_eq (A : Ty) (fwd : Bool) (p : Int) : A.step fwd p = if fwd then p + dir A else p - dir A := by
  induction A generalizing fwd with
  | ptr c => cases fwd <;> rfl
  | node c => cases fwd <;> rfl
  | adapt k t i ih =>
    rw [dir_adapt]
    unfold Ty.step
    rw [ih]
    by_cases hk : k.isReverse = true
    · cases fwd <;> simp [hk] <;> omega
    · cases fwd <;> simp [hk]

theorem jump_eq (A : Ty) (hr : A.random = true) (fwd : Bool) (v p : Int) : A.jump fwd v p = if fwd then p + dir A * v else p - dir A * v := by
  induction A generalizing fwd with
  | ptr c => cases fwd <;> simp [Ty.jump, dir, reverses]
  | node c => simp [Ty.random] at hr
  | adapt k t i ih =>
    rw [dir_adapt]
    unfold Ty.jump
    rw [ih hr]
    by_cases hk : k.isReverse = true
    · cases fwd <;> simp [hk, Int.neg_mul] <;> omega
    · cases fwd <;> simp [hk]

theorem repeat_add (f : Int → Int) (d : Int) (hf : ∀ p, f p = p + d) (n : Nat) (p : Int) : Nat.repeat f n p = p + n * d := by
  induction n with
  | zero => simp [Nat.repeat]
  | succ n ih =>
    rw [Nat.repeat, hf, ih]
    rw [show ((n + 1 : Nat) : Int) = (n : Int) + 1 from by omega, Int.add_mul]
    omega

theorem repeat_step (A : Ty) (n : Nat) (p : Int) : Nat.repeat (A.step true) n p = p + n * dir A :=
  repeat_add _ _ (fun p => step_eq A true p) n p

theorem before_iff (A : Ty) (a b : Int) : Before A a b ↔ if dir A = 1 then a < b else b < a := by
  unfold Before Steps
  simp only [repeat_step]
  rcases dir_cases A with h | h
  · rw [h, if_pos rfl]
    constructor
    · rintro ⟨n, hn, e⟩; omega
    · intro hl; exact ⟨(b - a).toNat, by omega, by omega⟩
  · rw [h, if_neg (by decide)]
    constructor
    · rintro ⟨n, hn, e⟩; omega
    · intro hl; exact ⟨(a - b).toNat, by omega, by omega⟩

theorem eqMember_eq (A : Ty) (p q : Option Int) : A.eqMember p q = decide (p = q) := by
  induction A with
  | ptr c => rfl
  | node c => rfl
  | adapt k t i ih => exact ih

theorem truth_eq (A : Ty) (p : Option Int) : A.truth p = p.isSome := by
  induction A with
  | ptr c => rfl
  | node c => rfl
  | adapt k t i ih => exact ih

theorem diffMember_eq (A : Ty) (a b : Int) : diffMember A a b = a - b := by
  induction A with
  | ptr c => rfl
  | node c => rfl
  | adapt k t i ih => exact ih

theorem flip_flip (r : Rel) : r.flip.flip = r := by cases r <;> rfl

theorem relMember_eq (A : Ty) (r : Rel) (a b : Int) : A.relMember r a b = (if dir A = 1 then r else r.flip).holds a b := by
  induction A generalizing r with
  | ptr c => rfl
  | node c => rfl
  | adapt k t i ih =>
    unfold Ty.relMember
    rw [ih, dir_adapt]
    by_cases hk : k.isReverse = true
    · simp only [hk, if_true]
      rcases dir_cases i with h | h
      · rw [h, if_pos rfl, if_neg (by decide)]
      · rw [h, if_neg (by decide), if_pos (by decide), flip_flip]
    · simp [hk]

theorem sameBase_self (A : Ty) : A.sameBase A = true := by
  cases A with
  | ptr c => simp [Ty.sameBase]
  | node c => simp [Ty.sameBase]
  | adapt k t i => simp [Ty.sameBase]

/-- A stack of three: forward, backward, forward again. -/
abbrev ex3 : Ty := .std .iter (.std .reverse (.std .reverse (.ptr false)))
/-- `Vector::Iterator`, `Vector::ConstIterator`, `Vector::ReverseIterator`, `Vector::ConstReverseIterator` (Vector.hpp 70-81, and those of Array). -/
abbrev vIter : Ty := .adapt .iter false (.ptr false)
abbrev vConst : Ty := .adapt .constIter false (.ptr true)
abbrev vReverse : Ty := .std .reverse vIter
abbrev vConstReverse : Ty := .std .constReverse vConst

/-- **C187, moving.**  However adaptors are stacked, `--` undoes `++` and the other way round, and `+= n` and `-= n` are `n` times `++` and `--`. -/
theorem C187_moves (A : Ty) (p : Int) (n : Nat) :
    A.step false (A.step true p) = p ∧ A.step true (A.step false p) = p ∧
      (A.random = true → A.jump true n p = Nat.repeat (A.step true) n p ∧ A.jump false n p = Nat.repeat (A.step false) n p) := by
  refine ⟨by rw [step_eq, step_eq]; simp, by rw [step_eq, step_eq]; simp, fun hr => ⟨?_, ?_⟩⟩
  · rw [jump_eq A hr, if_pos rfl, repeat_step, Int.mul_comm]
  · rw [jump_eq A hr, if_neg (by decide), repeat_add _ (-dir A) (fun p => by rw [step_eq, if_neg (by decide)]; omega), Int.mul_neg, Int.mul_comm]
    omega

example : (Ty.std .reverse (.ptr false)).step true 5 = 4 ∧ ex3.step true 5 = 6 ∧ ex3.jump true 3 5 = 8 := by decide

/-- **C187, direction.**  `Iterator` and `ConstIterator` move as what they wrap, `ReverseIterator` and `ConstReverseIterator` the other way. -/
theorem C187_direction (t : Bool) (i : Ty) (fwd : Bool) (v p : Int) :
    (Ty.adapt .iter t i).step fwd p = i.step fwd p ∧ (Ty.adapt .constIter t i).step fwd p = i.step fwd p ∧
      (Ty.adapt .reverse t i).step fwd p = i.step (!fwd) p ∧ (Ty.adapt .constReverse t i).step fwd p = i.step (!fwd) p ∧
      (Ty.adapt .iter t i).jump fwd v p = i.jump fwd v p ∧ (Ty.adapt .constIter t i).jump fwd v p = i.jump fwd v p ∧
      (Ty.adapt .reverse t i).jump fwd v p = i.jump (!fwd) v p ∧ (Ty.adapt .constReverse t i).jump fwd v p = i.jump (!fwd) v p :=
  ⟨rfl, rfl, rfl, rfl, rfl, rfl, rfl, rfl⟩

example : vConstReverse.step true 5 = 4 ∧ vConst.step true 5 = 6 ∧ vConstReverse.jump true 2 5 = 3 := by decide

/-- **C187, equality.**  Two iterators of one type compare as equal exactly if they stand at the same place, if the left one is not const; if it is, exactly if both or none is null. -/
theorem C187_equality_exact (A : Ty) (hw : A.wf = true) (ca : Bool) (p q : Option Int) :
    eqExpr A ca A p q = .val (if ca then p.isSome == q.isSome else decide (p = q)) ∧
      neExpr A ca A p q = .val (if ca then p.isSome != q.isSome else decide (p ≠ q)) := by
  have hn : ¬ (A.wf = false ∨ A.wf = false) := by simp [hw]
  unfold eqExpr neExpr
  rw [if_neg hn, if_neg hn, eqMember_eq, truth_eq, truth_eq, sameBase_self]
  cases ca <;> simp

example : vIter.wf = true ∧ ex3.wf = true ∧ (Ty.std .reverse (.node false)).wf = true := by decide

/-- **C187 violated, a const left operand.**  Any two iterators of a sequence are then equal, never unequal, and neither before the other, wherever they stand; only `>` of the forward random access adaptors
is a const member.  A loop `while (end != it)` with a const `end` is not entered at all. -/
theorem C187_const_violated (A : Ty) (hw : A.wf = true) (hc : ∀ c, A ≠ .ptr c) (a b : Int) :
    eqExpr A true A (some a) (some b) = .val true ∧ neExpr A true A (some a) (some b) = .val false ∧
      relExpr A true A .lt a b = .val false ∧ relExpr A true A .le a b = .val true ∧ relExpr A true A .ge a b = .val true := by
  have hr : ∀ r, r ≠ Rel.gt → relExpr A true A r a b = .val (r.holds 1 1) := by
    intro r hr
    unfold relExpr
    rw [if_neg (by simp [hw]), truth_eq, truth_eq, if_neg]
    · rfl
    · rintro ⟨-, h⟩
      cases A with
      | ptr c => exact hc c rfl
      | node c => cases h
      | adapt k t i => simp [Ty.hasRel] at h; exact hr h.2.1
  refine ⟨?_, ?_, hr .lt (by decide), hr .le (by decide), hr .ge (by decide)⟩
  · rw [(C187_equality_exact A hw true _ _).1]; rfl
  · rw [(C187_equality_exact A hw true _ _).2]; rfl

example : eqExpr vIter true vIter (some 0) (some 9) = .val true ∧ neExpr vConst true vConst (some 0) (some 9) = .val false := by decide

/-- **C187, types that cannot be instantiated.**  A random access `Iterator` with a const element, anywhere in the stack of either operand, rules out every comparison and the difference. -/
theorem C187_uninstantiable (A B : Ty) (i : Ty) (hi : i.random = true) (outer : List (Kind × Bool))
    (h : outer.foldr (fun x y => Ty.adapt x.1 x.2 y) (.adapt .iter true i) ∈ [A, B]) (ca : Bool) (p q : Option Int) (r : Rel) (a b : Int) :
    eqExpr A ca B p q = .error ∧ neExpr A ca B p q = .error ∧ relExpr A ca B r a b = .error ∧ diffExpr A B a b = .error := by
  have hf : (outer.foldr (fun x y => Ty.adapt x.1 x.2 y) (.adapt .iter true i)).wf = false := by
    clear h
    induction outer with
    | nil => simp [Ty.wf, hi]
    | cons x xs ih => simp only [List.foldr_cons, Ty.wf, ih, Bool.false_and]
  have hw : A.wf = false ∨ B.wf = false := by
    simp only [List.mem_cons, List.not_mem_nil, or_false] at h
    rcases h with h | h
    · exact .inl (h ▸ hf)
    · exact .inr (h ▸ hf)
  simp [eqExpr, neExpr, relExpr, diffExpr, hw]

-- `Iterator<const int *>` under a `ReverseIterator`, compared with a plain pointer
example : eqExpr (.ptr false) false (.std .reverse (.std .iter (.ptr true))) (some 0) (some 1) = .error ∧
    eqExpr (.std .reverse (.std .iter (.ptr true))) false (.ptr false) (some 0) (some 1) = .error :=
  ⟨(C187_uninstantiable _ _ (.ptr true) rfl [(.reverse, true)] (by simp [Ty.std, Ty.typeConst]) false _ _ .lt 0 0).1,
    (C187_uninstantiable _ _ (.ptr true) rfl [(.reverse, true)] (by simp [Ty.std, Ty.typeConst]) false _ _ .lt 0 0).1⟩

/-- The `>` of a const forward iterator is right. -/
theorem C187_const_greater (k : Kind) (t : Bool) (i : Ty) (hw : (Ty.adapt k t i).wf = true) (hi : i.random = true) (a b : Int) :
    relExpr (.adapt k t i) true (.adapt k t i) .gt a b =
      .val (if k.isReverse then false else (Ty.adapt k t i).relMember .gt a b) := by
  unfold relExpr
  rw [if_neg (by simp [hw]), truth_eq, truth_eq]
  by_cases hk : k.isReverse = true
  · rw [if_neg (by simp [Ty.hasRel, hk]), if_pos hk]; rfl
  · rw [if_pos ⟨.inl rfl, by simp [Ty.hasRel, hi, hk]⟩, if_neg hk]

example : relExpr vIter true vIter .gt 4 1 = .val true ∧ relExpr vReverse true vReverse .gt 1 4 = .val false := by decide

/-- **C187, order.**  In a random access stack with an even number of reverse adaptors, the comparisons of a non-const iterator with another say which one is visited first. -/
theorem C187_order_partial (A : Ty) (hw : A.wf = true) (hr : A.random = true) (he : reverses A % 2 = 0) (a b : Int) :
    (relExpr A false A .lt a b = .val true ↔ Before A a b) ∧ (relExpr A false A .gt a b = .val true ↔ Before A b a) ∧
      (relExpr A false A .le a b = .val true ↔ ¬ Before A b a) ∧ (relExpr A false A .ge a b = .val true ↔ ¬ Before A a b) := by
  have hd : dir A = 1 := by unfold dir; rw [if_pos he]
  have h : ∀ r, relExpr A false A r a b = .val (r.holds a b) := by
    intro r
    unfold relExpr
    rw [if_neg (by simp [hw]), if_pos, relMember_eq, hd, if_pos rfl]
    refine ⟨.inl rfl, ?_⟩
    cases A with
    | ptr c => rfl
    | node c => cases hr
    | adapt k t i =>
      have : i.random = true := hr
      simp [Ty.hasRel, this]
  simp only [h, before_iff, hd, if_pos]
  refine ⟨by simp [Rel.holds], by simp [Rel.holds], ?_, ?_⟩
  · simp [Rel.holds]
  · simp [Rel.holds]

/-- **C187 violated, an odd number of reverse adaptors.**  Each comparison answers for equal positions what it should not: `<` and `>` say yes, `<=` and `>=` no. -/
theorem C187_order_exact (A : Ty) (hw : A.wf = true) (hr : A.random = true) (ho : reverses A % 2 = 1) (a b : Int) :
    (relExpr A false A .lt a b = .val true ↔ ¬ Before A b a) ∧ (relExpr A false A .gt a b = .val true ↔ ¬ Before A a b) ∧
      (relExpr A false A .le a b = .val true ↔ Before A a b) ∧ (relExpr A false A .ge a b = .val true ↔ Before A b a) := by
  have hd : dir A = -1 := by unfold dir; rw [if_neg (by omega)]
  have h : ∀ r, relExpr A false A r a b = .val (r.flip.holds a b) := by
    intro r
    unfold relExpr
    rw [if_neg (by simp [hw]), if_pos, relMember_eq, hd, if_neg (by decide)]
    refine ⟨.inl rfl, ?_⟩
    cases A with
    | ptr c => rfl
    | node c => cases hr
    | adapt k t i =>
      have : i.random = true := hr
      simp [Ty.hasRel, this]
  simp only [h, before_iff, hd]
  refine ⟨?_, ?_, ?_, ?_⟩ <;> simp [Rel.holds, Rel.flip]

example : ex3.random = true ∧ reverses ex3 % 2 = 0 ∧ vReverse.random = true ∧ reverses vReverse % 2 = 1 ∧ vReverse.wf = true := by decide

/-- **C187, distance.**  If `n` times `++` leads from `a` to `b`, the difference `b - a` is `n` for an even number of reverse adaptors and `-n` for an odd one, const or not. -/
theorem C187_difference_exact (A : Ty) (hw : A.wf = true) (hr : A.random = true) {n : Nat} {a b : Int} (h : Steps A n a b) :
    diffExpr A A b a = .val (if reverses A % 2 = 0 then (n : Int) else -n) := by
  unfold diffExpr
  rw [if_neg (by simp [hw]), if_pos hr, if_pos rfl, diffMember_eq]
  unfold Steps at h
  rw [repeat_step] at h
  unfold dir at h
  by_cases he : reverses A % 2 = 0
  · rw [if_pos he] at h ⊢; congr 1; omega
  · rw [if_neg he] at h ⊢; congr 1; omega

example : Steps vReverse 3 7 4 ∧ diffExpr vReverse vReverse 4 7 = .val (-3) := ⟨rfl, by decide⟩

/-- **C187 violated, bidirectional iterators.**  Iterators of a `List`, and adaptors of them, have no order and no distance, but the expressions compile: none is before the other, each is both `<=` and `>=`, and
the distance of any two is 0. -/
theorem C187_bidirectional_violated (A B : Ty) (hw : A.wf = true) (hb : B.wf = true) (hr : A.random = false) (ca : Bool) (a b : Int) :
    relExpr A ca B .lt a b = .val false ∧ relExpr A ca B .gt a b = .val false ∧ relExpr A ca B .le a b = .val true ∧
      relExpr A ca B .ge a b = .val true ∧ diffExpr A B a b = .val 0 := by
  have h : ∀ r, relExpr A ca B r a b = .val (r.holds 1 1) := by
    intro r
    unfold relExpr
    rw [if_neg (by simp [hw, hb]), truth_eq, truth_eq, if_neg]
    · rfl
    · rintro ⟨-, h⟩
      cases A with
      | ptr c => cases hr
      | node c => cases h
      | adapt k t i =>
        have : i.random = false := hr
        simp [Ty.hasRel, this] at h
  refine ⟨h .lt, h .gt, h .le, h .ge, ?_⟩
  unfold diffExpr
  rw [if_neg (by simp [hw, hb]), if_neg (by simp [hr]), truth_eq, truth_eq]; rfl

example : (Ty.std .reverse (.node false)).random = false ∧ relExpr (.node false) false (.node false) .lt 0 5 = .val false := by decide

/-- **C187 violated, two types.**  Iterators of different types that have no base class in common and do not convert compare as equal, and as neither less nor greater, wherever they stand; a random access one
cannot be subtracted from. -/
theorem C187_mixed_violated (A B : Ty) (hw : A.wf = true) (hb : B.wf = true) (hs : A.sameBase B = false) (hc : A.converts B = false) (ca : Bool) (a b : Int) :
    eqExpr A ca B (some a) (some b) = .val true ∧ neExpr A ca B (some a) (some b) = .val false ∧
      relExpr A ca B .lt a b = .val false ∧ relExpr A ca B .gt a b = .val false ∧
      relExpr A ca B .le a b = .val true ∧ relExpr A ca B .ge a b = .val true ∧
      (A.random = true → diffExpr A B a b = .error) := by
  have hne : A ≠ B := by rintro rfl; rw [sameBase_self] at hs; cases hs
  have h : ∀ r, relExpr A ca B r a b = .val (r.holds 1 1) := by
    intro r
    unfold relExpr
    rw [if_neg (by simp [hw, hb]), truth_eq, truth_eq, if_neg]
    · rfl
    · rintro ⟨h | h, -⟩
      · exact hne h
      · rw [hc] at h; cases h
  refine ⟨?_, ?_, h .lt, h .gt, h .le, h .ge, ?_⟩
  · unfold eqExpr
    rw [if_neg (by simp [hw, hb]), if_neg (by simp [hs]), if_neg (by simp [hc]), truth_eq, truth_eq]; rfl
  · unfold neExpr
    rw [if_neg (by simp [hw, hb]), if_neg (by simp [hs]), if_neg (by simp [hc]), truth_eq, truth_eq]; rfl
  · intro hr
    unfold diffExpr
    rw [if_neg (by simp [hw, hb]), if_pos hr, if_neg hne]

/-- So it is for the iterators and const iterators of every container, in both orders and both directions. -/
theorem C187_containers_violated (ca : Bool) (a b : Int) (A B : Ty)
    (h : (A, B) ∈ [(vIter, vConst), (vConst, vIter), (vReverse, vConstReverse), (vConstReverse, vReverse), (vIter, vReverse),
      (.node false, .node true), (.node true, .node false)]) :
    eqExpr A ca B (some a) (some b) = .val true ∧ neExpr A ca B (some a) (some b) = .val false ∧ relExpr A ca B .lt a b = .val false := by
  have key : ∀ A B : Ty, A.wf = true → B.wf = true → A.sameBase B = false → A.converts B = false →
      eqExpr A ca B (some a) (some b) = .val true ∧ neExpr A ca B (some a) (some b) = .val false ∧ relExpr A ca B .lt a b = .val false :=
    fun A B h1 h2 h3 h4 =>
      have h := C187_mixed_violated A B h1 h2 h3 h4 ca a b
      ⟨h.1, h.2.1, h.2.2.1⟩
  simp only [List.mem_cons, Prod.mk.injEq, List.not_mem_nil, or_false] at h
  rcases h with ⟨rfl, rfl⟩ | ⟨rfl, rfl⟩ | ⟨rfl, rfl⟩ | ⟨rfl, rfl⟩ | ⟨rfl, rfl⟩ | ⟨rfl, rfl⟩ | ⟨rfl, rfl⟩ <;>
    exact key _ _ (by decide) (by decide) (by decide) (by decide)

-- `vector.cbegin() == vector.end()` with nine elements
example : eqExpr vConst false vIter (some 0) (some 9) = .val true := by decide

/-- An adaptor and the iterator it wraps: `==` and `!=` are rejected, unless the adaptor is const. -/
theorem C187_wrapped (k : Kind) (t : Bool) (i : Ty) (hw : (Ty.adapt k t i).wf = true) (_hi : ∀ c, i ≠ .ptr c) (ca : Bool) (a b : Int) :
    eqExpr (.adapt k t i) ca i (some a) (some b) = (if ca then .val true else .error) ∧
      neExpr (.adapt k t i) ca i (some a) (some b) = (if ca then .val false else .error) := by
  have hwi : i.wf = true := by simp [Ty.wf] at hw; exact hw.1
  have hs : (Ty.adapt k t i).sameBase i = false := by
    cases i with
    | ptr c => simp [Ty.sameBase]
    | node c => simp [Ty.sameBase]
    | adapt k' t' i' =>
      have : Ty.adapt k' t' i' ≠ i' := fun c => by cases c
      simp [Ty.sameBase, this]
  have hn : ¬ ((Ty.adapt k t i).wf = false ∨ i.wf = false) := by simp [hw, hwi]
  unfold eqExpr neExpr
  rw [if_neg hn, if_neg hn, truth_eq, truth_eq, hs]
  cases ca <;> simp [Ty.converts]

example : vReverse.sameBase vIter = false ∧ eqExpr vReverse false vIter (some 1) (some 1) = .error := by decide

/-- By order they can be compared: the wrapped iterator is taken as an adaptor standing at the same place. -/
theorem C187_wrapped_order (k : Kind) (t : Bool) (i : Ty) (hw : (Ty.adapt k t i).wf = true) (hr : i.random = true) (r : Rel) (a b : Int) :
    relExpr (.adapt k t i) false i r a b = relExpr (.adapt k t i) false (.adapt k t i) r a b := by
  have hwi : i.wf = true := by simp [Ty.wf] at hw; exact hw.1
  have hm : (Ty.adapt k t i).hasRel false r = true := by simp [Ty.hasRel, hr]
  have hc : (Ty.adapt k t i).converts i = true := by simp [Ty.converts]
  unfold relExpr
  simp [hw, hwi, hm, hc]

example : relExpr vReverse false vIter .lt 7 4 = .val true ∧ relExpr vIter false vReverse .gt 7 4 = .val false := by decide

/-- `Iterator` and `ReverseIterator` of the same iterator have the same base class; `==` compares their positions. -/
theorem C187_shared_base (t : Bool) (i : Ty) (h1 : (Ty.adapt .iter t i).wf = true) (p q : Option Int) :
    eqExpr (.adapt .iter t i) false (.adapt .reverse t i) p q = .val (decide (p = q)) ∧
      eqExpr (.adapt .reverse t i) false (.adapt .iter t i) p q = .val (decide (p = q)) := by
  have hwi : i.wf = true := by simp [Ty.wf] at h1; exact h1.1
  have h2 : (Ty.adapt .reverse t i).wf = true := by simp [Ty.wf, hwi]
  unfold eqExpr
  rw [eqMember_eq, eqMember_eq]
  simp [h1, h2, Ty.sameBase, Kind.isConst]

example : (Ty.adapt .iter false (.ptr false)).wf = true := by decide

namespace Flame.IterStack
example := C187_order_partial ex3 (by decide) (by decide) (by decide) 3 5
example := C187_mixed_violated vConst vIter (by decide) (by decide) (by decide) (by decide) false 0 9
end Flame.IterStack

end Flame.IterStack
