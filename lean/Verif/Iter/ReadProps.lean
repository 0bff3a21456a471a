import Verif.Iter.StackProps

/-!
# C188: an iterator reads what it stands at, and a const one does not let it be written
-/

namespace Flame.IterStack
open TypeList (Ct)

/-- Somewhere in the stack stands a const adaptor, or the elements were const from the start. -/
def mentionsConst : Ty → Bool
  | .ptr c => c
  | .node c => c
  | .adapt k _ i => k.isConst || mentionsConst i

/-- Every adaptor has its default traits. -/
def Std : Ty → Prop
  | .adapt _ t i => t = i.typeConst ∧ Std i
  | _ => True

/-- A non-const adaptor stands outside something const. -/
def buried : Ty → Bool
  | .adapt k _ i => buried i || (!k.isConst && mentionsConst i)
  | _ => false

/-- A non-const `Iterator` occurs. -/
def hasIter : Ty → Bool
  | .adapt k _ i => k == .iter || hasIter i
  | _ => false

theorem deref_const_kept (A : Ty) (o : Bool) (h : deref A o = .val false) : mentionsConst A = false := by
  induction A generalizing o with
  | ptr c => simp [deref] at h; exact h
  | node c => simp [deref] at h; exact h.1
  | adapt k t i ih =>
    unfold deref at h
    cases hi : deref i false with
    | error => rw [hi] at h; cases h
    | val c =>
      rw [hi] at h
      simp only at h
      by_cases hk : k.isConst = true ∨ o = true
      · rw [if_pos hk] at h; cases h
      · rw [if_neg hk] at h
        by_cases hc : c = true ∧ t = false
        · rw [if_pos hc] at h; cases h
        · rw [if_neg hc] at h
          have ht : t = false := by simpa using h
          have hc' : c = false := by
            cases c
            · rfl
            · exact absurd ⟨rfl, ht⟩ hc
          rw [hc'] at hi
          have := ih false hi
          simp [mentionsConst, this]
          cases e : k.isConst
          · rfl
          · exact absurd (.inl e) hk

/-- **C188, `*it` keeps const.**  However adaptors are stacked, with whatever traits: if the reference `*it` yields may be written through, no const iterator and no pointer to const takes part. -/
theorem C188_const_kept (A : Ty) (o : Bool) (h : derefExpr A o = .val false) : mentionsConst A = false := by
  unfold derefExpr at h
  split at h
  · cases h
  · exact deref_const_kept A o h

example : derefExpr ex3 false = .val false ∧ derefExpr vConstReverse false = .val true := by decide

theorem deref_std (A : Ty) (hs : Std A) (ht : A.typeConst = false) :
    deref A false = if buried A then .error else .val (mentionsConst A) := by
  induction A with
  | ptr c => simp [buried, deref, mentionsConst]
  | node c => simp [buried, deref, mentionsConst]
  | adapt k t i ih =>
    have e : t = false := ht
    have hi := ih hs.2 (hs.1 ▸ e)
    unfold deref
    rw [hi]
    by_cases hb : buried i = true
    · simp [hb, buried]
    · cases hk : k.isConst <;> cases hm : mentionsConst i <;> simp [hb, buried, hk, hm, e, mentionsConst]

theorem wf_std (A : Ty) (hs : Std A) (ht : A.typeConst = false) : A.wf = true := by
  induction A with
  | ptr c => rfl
  | node c => rfl
  | adapt k t i ih =>
    have e : t = false := ht
    simp [Ty.wf, ih hs.2 (hs.1 ▸ e), e]

/-- **C188, which iterators can be read.**  With default traits over elements that are not const, `*it` compiles for a non-const iterator exactly if no non-const adaptor stands outside a const one; the
reference may then be written through exactly if there is no const one at all. -/
theorem C188_deref_exact (A : Ty) (hs : Std A) (ht : A.typeConst = false) :
    derefExpr A false = if buried A then .error else .val (mentionsConst A) := by
  unfold derefExpr
  rw [wf_std A hs ht, if_neg (by decide), deref_std A hs ht]

/-- So a reverse iterator of a const iterator cannot be read, although the const iterator can. -/
theorem C188_buried_violated (i : Ty) (hs : Std i) (ht : i.typeConst = false) (hm : mentionsConst i = true) (hb : buried i = false) (k : Kind) (hk : k.isConst = false) :
    derefExpr i false = .val true ∧ derefExpr (.std k i) false = .error ∧ derefExpr (.std k i) true = .val true := by
  have h1 := C188_deref_exact i hs ht
  rw [hb, hm] at h1
  have hsk : Std (.std k i) := ⟨rfl, hs⟩
  have htk : (Ty.std k i).typeConst = false := ht
  refine ⟨h1, ?_, ?_⟩
  · rw [C188_deref_exact _ hsk htk]
    simp [Ty.std, buried, hk, hm]
  · have hd := deref_std i hs ht
    rw [hb, hm] at hd
    unfold derefExpr
    rw [wf_std _ hsk htk, if_neg (by decide)]
    unfold Ty.std deref
    rw [hd]
    simp

example : Std (.std .constIter (.ptr false)) ∧ (Ty.std .constIter (.ptr false)).typeConst = false ∧ mentionsConst (.std .constIter (.ptr false)) = true ∧
    buried (.std .constIter (.ptr false)) = false ∧ Std ex3 ∧ ex3.typeConst = false := by
  refine ⟨⟨rfl, trivial⟩, rfl, rfl, rfl, ⟨rfl, rfl, rfl, trivial⟩, rfl⟩

/-- **C188, a const object.**  `*it` of a const adaptor object only ever reads; it compiles exactly if the wrapped iterator can be read. -/
theorem C188_const_object (k : Kind) (t : Bool) (i : Ty) (hw : (Ty.adapt k t i).wf = true) :
    derefExpr (.adapt k t i) true = match derefExpr i false with | .error => .error | .val _ => .val true := by
  have hwi : i.wf = true := by simp [Ty.wf] at hw; exact hw.1
  unfold derefExpr
  rw [hw, hwi, if_neg (by decide), if_neg (by decide), deref]
  cases deref i false <;> simp

example : derefExpr (.std .reverse vConst) true = .val true ∧ derefExpr (.std .reverse vConst) false = .error := by decide

theorem std_const (A : Ty) (hs : Std A) (ht : A.typeConst = true) :
    A.random = true ∧ (∀ o, deref A o = .val true) ∧ A.wf = !hasIter A := by
  induction A with
  | ptr c => exact ⟨rfl, fun o => by simp [deref]; exact ht, rfl⟩
  | node c => cases ht
  | adapt k t i ih =>
    have e : t = true := ht
    obtain ⟨h1, h2, h3⟩ := ih hs.2 (hs.1 ▸ e)
    refine ⟨h1, fun o => ?_, ?_⟩
    · unfold deref; rw [h2 false]; simp [e]
    · simp only [Ty.wf, hasIter, h1, h3, e]
      cases (k == Kind.iter) <;> cases hasIter i <;> rfl

/-- **C188, elements const from the start.**  Over a pointer to const an `Iterator` is ill-formed, alone or anywhere in a stack; any other stack reads and does not write. -/
theorem C188_pointer_to_const (A : Ty) (hs : Std A) (ht : A.typeConst = true) (o : Bool) :
    derefExpr A o = if hasIter A then .error else .val true := by
  obtain ⟨-, h2, h3⟩ := std_const A hs ht
  unfold derefExpr
  rw [h2, h3]
  cases hasIter A <;> rfl

example : Std (.std .reverse (.ptr true)) ∧ (Ty.std .reverse (.ptr true)).typeConst = true ∧ derefExpr (.std .reverse (.ptr true)) false = .val true ∧
    derefExpr (.std .reverse (.std .iter (.ptr true))) false = .error := ⟨⟨rfl, trivial⟩, rfl, by decide, by decide⟩

theorem index_random (A : Ty) (o : Bool) (v p : Int) (x : Int × Bool) (h : index A o v p = .val x) : A.random = true := by
  cases A with
  | ptr c => rfl
  | node c => cases h
  | adapt k t i =>
    show i.random = true
    cases hr : i.random
    · cases k <;> simp [index, hr] at h
    · rfl

theorem index_pos (A : Ty) (o : Bool) (v p x : Int) (w : Bool) (h : index A o v p = .val (x, w)) : x = p + dir A * v := by
  induction A generalizing o w with
  | ptr c => simp [index] at h; simp [dir, reverses, h.1]
  | node c => cases h
  | adapt k t i ih =>
    have hr : i.random = true := index_random (.adapt k t i) o v p _ h
    have rev : k.isReverse = true → x = i.jump false v p → x = p + dir (.adapt k t i) * v := by
      intro hk e
      rw [e, jump_eq i hr, dir_adapt, if_pos hk, if_neg (by decide), Int.neg_mul]; omega
    have rest : ∀ c : Bool, (if o = true then Ct.val (i.jump false v p, true)
        else if c = true ∧ t = false then .error else .val (i.jump false v p, t)) = .val (x, w) → x = i.jump false v p := by
      intro c e
      split at e
      · cases e; rfl
      · split at e
        · cases e
        · cases e; rfl
    cases k with
    | iter => simp [index] at h
    | constIter =>
      rw [dir_adapt, if_neg (by decide)]
      unfold index at h
      split at h
      · cases h
      · cases hi : index i false v p with
        | error => rw [hi] at h; cases h
        | val y =>
          obtain ⟨y, w'⟩ := y
          rw [hi] at h
          simp only [Ct.val.injEq, Prod.mk.injEq] at h
          exact ih false w' (h.1 ▸ hi)
    | reverse =>
      apply rev rfl
      simp only [index, hr] at h
      cases hi : deref i false with
      | error => rw [hi] at h; simp at h
      | val c => rw [hi] at h; exact rest c (by simpa using h)
    | constReverse =>
      apply rev rfl
      simp only [index, hr] at h
      cases hi : deref i false with
      | error => rw [hi] at h; simp at h
      | val c => rw [hi] at h; exact rest c (by simpa using h)

/-- **C188, `it[n]`.**  Where it compiles it reads the element `n` steps along, however adaptors are stacked. -/
theorem C188_index (A : Ty) (o : Bool) (n : Nat) (p x : Int) (w : Bool) (h : indexExpr A o n p = .val (x, w)) : Steps A n p x := by
  unfold indexExpr at h
  split at h
  · cases h
  · unfold Steps
    rw [repeat_step, index_pos A o n p x w h, Int.mul_comm]

example : indexExpr vReverse false 2 7 = .val (5, false) ∧ indexExpr (.std .constIter vReverse) false 2 7 = .val (5, true) := by decide

/-- **C188 violated, `it[n]` of an `Iterator`.**  It never compiles. -/
theorem C188_index_violated (t : Bool) (i : Ty) (o : Bool) (v p : Int) : indexExpr (.adapt .iter t i) o v p = .error := by
  unfold indexExpr index; split <;> rfl

/-- **C188 violated, `it[n]` of a `ConstReverseIterator`.**  Over an iterator that lets its element be written, so does the const one; over one that does not, it does not compile
unless the object itself is const. -/
theorem C188_index_const_violated (i : Ty) (hw : i.wf = true) (ht : i.typeConst = false) (hr : i.random = true) (c : Bool) (h : derefExpr i false = .val c) (v p : Int) :
    derefExpr (.std .constReverse i) false = .val true ∧
      indexExpr (.std .constReverse i) false v p = (if c then .error else .val (i.jump false v p, false)) ∧
      indexExpr (.std .constReverse i) true v p = .val (i.jump false v p, true) := by
  have hw' : (Ty.std .constReverse i).wf = true := by simp [Ty.std, Ty.wf, hw]
  have hd : deref i false = .val c := by
    unfold derefExpr at h; rw [hw, if_neg (by decide)] at h; exact h
  unfold derefExpr indexExpr
  simp only [hw', Bool.true_eq_false, if_false]
  unfold Ty.std
  refine ⟨?_, ?_, ?_⟩
  · unfold deref; rw [hd]; simp [Kind.isConst]
  · cases c <;> simp [index, hr, hd, ht]
  · simp [index, hr, hd]

-- `ConstReverseIterator<T *>` lets the element be written; `vector.crbegin()[2]` does not compile
example : indexExpr (.std .constReverse (.ptr false)) false 2 7 = .val (5, false) ∧ indexExpr vConstReverse false 2 7 = .error ∧
    indexExpr vConstReverse true 2 7 = .val (5, true) := by decide

/-- The same element, only to be read. -/
def asRead : Ct (Int × Bool) → Ct (Int × Bool)
  | .error => .error
  | .val (x, _) => .val (x, true)

/-- A const adaptor that is not a reverse one keeps const with `[]` too; it cannot be used on a const object, and not over an `Iterator`. -/
theorem C188_index_constIter (t : Bool) (i : Ty) (hw : (Ty.adapt .constIter t i).wf = true) (o : Bool) (v p : Int) :
    indexExpr (.adapt .constIter t i) o v p =
      if o then .error else asRead (indexExpr i false v p) := by
  have hwi : i.wf = true := by simp [Ty.wf] at hw; exact hw
  unfold indexExpr
  simp only [hw, hwi, Bool.true_eq_false, if_false]
  rw [index]
  cases o
  · cases hr : i.random
    · have : index i false v p = .error := by
        cases hi : index i false v p with
        | error => rfl
        | val x => rw [index_random i _ _ _ _ hi] at hr; cases hr
      rw [this]; simp [asRead]
    · cases hi : index i false v p <;> simp [asRead]
  · simp

example : indexExpr vConst false 3 1 = .val (4, true) ∧ indexExpr vConst true 3 1 = .error ∧ indexExpr (.std .constIter vIter) false 3 1 = .error := by decide

namespace Flame.IterStack
example := C188_deref_exact (.std .constIter (.ptr false)) ⟨rfl, trivial⟩ rfl
end Flame.IterStack

end Flame.IterStack
