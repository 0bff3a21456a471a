import Verif.Vector.Reloc
import Verif.Circular.Model
import Verif.List.Lemmas4

/-! # C167: the elements of a growing `Vector` keep their values -/

namespace Flame
namespace Reloc
variable {c : Cls}

/-- What the calls of a history make of the values held. -/
def after {α : Type} (xs : List α) : Option α × Bool → List α
  | (some x, _) => xs ++ [x]
  | (none, true) => xs.dropLast
  | (none, false) => xs

/-- The effect a call is to have on the values. -/
def Op.effect : Op c → Option c.Val × Bool
  | .pushBack _ x => (some x, false)
  | .reserve _ _ => (none, false)
  | .popBack => (none, true)

/-- The values a history is to leave behind. -/
def spec (os : List (Op c)) : List c.Val := os.foldl (fun xs o => after xs o.effect) []

/-- Values pushed fit. -/
def Op.Fits : Op c → Prop
  | .pushBack _ x => c.fits x
  | _ => True

/-- Members without the object's own address: observers do not depend on where the object is. -/
def Anywhere (c : Cls) : Prop := ∀ a b m, c.read a m = c.read b m

/-- Constructors and move constructors work. -/
structure Works (c : Cls) : Prop where
  make : ∀ a x, c.fits x → c.read a (c.make a x) = .ok x
  moveTo : ∀ a b m x, c.read a m = .ok x → ∃ m', c.moveTo a b m = .ok m' ∧ c.read b m' = .ok x

theorem readAll_append (c : Cls) : ∀ (ms ms' : List c.Mem) (a : Int),
    readAll c a (ms ++ ms') = readAll c a ms >>= fun xs => readAll c (a + c.width * ms.length) ms' >>= fun ys => .ok (xs ++ ys)
  | [], ms', a => by
    simp only [List.nil_append, readAll, Res.ok_bind, List.length_nil, Int.natCast_zero, Int.mul_zero, Int.add_zero]
    cases readAll c a ms' <;> rfl
  | m :: ms, ms', a => by
    simp only [List.cons_append, readAll, List.length_cons]
    cases c.read a m with
    | ok x =>
      simp only [Res.ok_bind]
      rw [readAll_append c ms ms']
      have e : a + (c.width : Int) + c.width * ms.length = a + c.width * ((ms.length + 1 : Nat) : Int) := by
        push_cast; rw [Int.mul_add, Int.mul_one]; omega
      rw [e]
      cases readAll c (a + c.width) ms with
      | ok xs => simp only [Res.ok_bind]; cases readAll c (a + c.width * ((ms.length + 1 : Nat) : Int)) ms' <;> simp
      | ub => rfl
      | loop => rfl
    | ub => rfl
    | loop => rfl

theorem readAll_snoc {c : Cls} {a : Int} {ms : List c.Mem} {xs : List c.Val} {m : c.Mem} {x : c.Val} (h : readAll c a ms = .ok xs)
    (hm : c.read (a + c.width * ms.length) m = .ok x) : readAll c a (ms ++ [m]) = .ok (xs ++ [x]) := by
  rw [readAll_append, h]
  simp [readAll, hm]

theorem readAll_length {c : Cls} : ∀ {ms : List c.Mem} {a : Int} {xs : List c.Val}, readAll c a ms = .ok xs → xs.length = ms.length
  | [], _, _, h => by cases h; rfl
  | m :: ms, a, xs, h => by
    simp only [readAll, Res.bind_eq_ok] at h
    obtain ⟨x, _, ys, hy, h⟩ := h
    cases h
    simp [readAll_length hy]

theorem readAll_dropLast {c : Cls} {a : Int} {ms : List c.Mem} {xs : List c.Val} (h : readAll c a ms = .ok xs) :
    readAll c a ms.dropLast = .ok xs.dropLast := by
  rcases List.eq_nil_or_concat ms with e | ⟨ms', m, e⟩
  · subst e; cases h; rfl
  · rw [List.concat_eq_append] at e
    subst e
    rw [readAll_append] at h
    simp only [Res.bind_eq_ok] at h
    obtain ⟨ys, hy, zs, hz, h⟩ := h
    cases h
    have hl := readAll_length hz
    obtain ⟨z, rfl⟩ : ∃ z, zs = [z] := by
      match zs, hl with
      | [z], _ => exact ⟨z, rfl⟩
    simpa using hy

theorem readAll_get {c : Cls} : ∀ {ms : List c.Mem} {a : Int} {xs : List c.Val} {i : Nat} {x : c.Val}, readAll c a ms = .ok xs → xs[i]? = some x →
    ∃ m, ms[i]? = some m ∧ c.read (a + c.width * i) m = .ok x
  | [], _, _, i, _, h, hx => by cases h; simp at hx
  | m :: ms, a, xs, i, x, h, hx => by
    simp only [readAll, Res.bind_eq_ok] at h
    obtain ⟨y, hy, ys, hys, h⟩ := h
    cases h
    cases i with
    | zero =>
      simp only [List.getElem?_cons_zero, Option.some.injEq] at hx
      subst hx
      exact ⟨m, rfl, by simpa using hy⟩
    | succ i =>
      rw [List.getElem?_cons_succ] at hx
      obtain ⟨m', h1, h2⟩ := readAll_get hys hx
      refine ⟨m', by rw [List.getElem?_cons_succ]; exact h1, ?_⟩
      have e : a + (c.width : Int) + c.width * i = a + c.width * ((i + 1 : Nat) : Int) := by
        push_cast; rw [Int.mul_add, Int.mul_one]; omega
      rw [← e]; exact h2

theorem readAll_at {c : Cls} {v : V c} {xs : List c.Val} {i : Nat} {x : c.Val} (h : v.toList = .ok xs) (hx : xs[i]? = some x) : v.at i = .ok x := by
  obtain ⟨m, h1, h2⟩ := readAll_get (show readAll c v.base v.items = .ok xs from h) hx
  unfold V.at
  rw [h1]; exact h2

theorem readAll_anywhere {c : Cls} (hi : Anywhere c) (b : Int) : ∀ {ms : List c.Mem} {a : Int} {xs : List c.Val},
    readAll c a ms = .ok xs → readAll c b ms = .ok xs := by
  intro ms
  induction ms generalizing b with
  | nil => intro a xs h; exact h
  | cons m ms ih =>
    intro a xs h
    simp only [readAll, Res.bind_eq_ok] at h ⊢
    obtain ⟨x, hx, ys, hy, h⟩ := h
    exact ⟨x, (hi b a m).trans hx, ys, ih _ hy, h⟩

theorem moveAll_ok {c : Cls} (hw : Works c) : ∀ {ms : List c.Mem} {a b : Int} {xs : List c.Val}, readAll c a ms = .ok xs →
    ∃ ms', moveAll c a b ms = .ok ms' ∧ ms'.length = ms.length ∧ readAll c b ms' = .ok xs
  | [], _, _, _, h => ⟨[], rfl, rfl, h⟩
  | m :: ms, a, b, xs, h => by
    simp only [readAll, Res.bind_eq_ok] at h
    obtain ⟨x, hx, ys, hy, h⟩ := h
    cases h
    obtain ⟨m', h1, h2⟩ := hw.moveTo a b m x hx
    obtain ⟨ms', h3, h4, h5⟩ := moveAll_ok hw (b := b + c.width) hy
    exact ⟨m' :: ms', by simp [moveAll, h1, h3], by simp [h4], by simp [readAll, h2, h5]⟩

/-- The block is not carried elsewhere while elements that mind are in it. -/
def Still (v : V c) (ans : Nat → Ans) : Prop := Anywhere c ∨ ∀ n b, ans n = .moved b → v.items = [] ∨ b = v.base

theorem reserve_ok (hw : Works c) {v : V c} {ans : Nat → Ans} {n : Nat} {xs : List c.Val} (h : v.toList = .ok xs) (hs : Still v ans) :
    ∃ v', v.reserve ans n = .ok v' ∧ v'.toList = .ok xs ∧ (v' = v ∨ (v'.items.length = v.items.length ∧ v'.cap = n ∧ v.cap < n)) := by
  unfold V.reserve
  split
  · rename_i hlt
    cases e : ans n with
    | moved b =>
      refine ⟨_, rfl, ?_, .inr ⟨rfl, rfl, hlt⟩⟩
      rcases hs with hi | hs
      · exact readAll_anywhere hi b h
      · rcases hs n b e with e0 | e0
        · have h' : readAll c v.base v.items = .ok xs := h
          rw [e0] at h'
          show readAll c b v.items = .ok xs
          rw [e0]; exact h'
        · subst e0; exact h
    | created b =>
      obtain ⟨ms', h1, h2, h3⟩ := moveAll_ok hw (b := b) (show readAll c v.base v.items = .ok xs from h)
      exact ⟨⟨b, ms', n⟩, by simp [h1], h3, .inr ⟨h2, rfl, hlt⟩⟩
    | fail => exact ⟨v, rfl, h, .inl rfl⟩
  · exact ⟨v, rfl, h, .inl rfl⟩

theorem push_ok (hw : Works c) {x : c.Val} (hx : c.fits x) {ans : Nat → Ans} : ∀ (f : Nat) {v v' : V c} {xs : List c.Val}, v.toList = .ok xs →
    (v.items.length = v.cap → Still v ans) → v.pushBack ans f x = .ok v' → v'.toList = .ok (xs ++ [x])
  | 0, _, _, _, _, _, h => by cases h
  | f + 1, v, v', xs, hv, hs, h => by
    unfold V.pushBack at h
    split at h
    · cases h
      exact readAll_snoc hv (hw.make _ _ hx)
    · rename_i hne
      have hfull : v.items.length = v.cap := by omega
      obtain ⟨u, hu, hux, hcase⟩ := reserve_ok hw (n := v.nextCap) hv (hs hfull)
      rw [hu] at h
      refine push_ok hw hx f hux (fun hc => ?_) h
      rcases hcase with rfl | ⟨h1, h2, h3⟩
      · exact hs hfull
      · omega

end Reloc

open Reloc

/-- **C167 (partial), elements without their own address.** Whatever the allocator does, over every history of a vector of a class whose members do not
contain addresses inside the object, the elements have the values pushed. -/
theorem C167_anywhere_partial {c : Cls} (hw : Works c) (hi : Anywhere c) {f : Nat} {os : List (Op c)} (hf : ∀ o ∈ os, o.Fits) {v : V c}
    (h : runOps (V.step f) V.empty os = .ok v) : v.toList = .ok (spec os) := by
  have key : ∀ (os : List (Op c)) (u : V c) (xs : List c.Val), (∀ o ∈ os, o.Fits) → u.toList = .ok xs → runOps (V.step f) u os = .ok v →
      v.toList = .ok (os.foldl (fun xs o => after xs o.effect) xs) := by
    intro os
    induction os with
    | nil => intro u xs _ hu h; cases h; exact hu
    | cons o os ih =>
      intro u xs hf hu h
      obtain ⟨u', h1, h2⟩ : ∃ u', V.step f u o = .ok u' ∧ runOps (V.step f) u' os = .ok v := by
        unfold runOps at h
        cases e : V.step f u o with
        | ok u' => rw [e] at h; exact ⟨u', rfl, h⟩
        | ub => rw [e] at h; cases h
        | loop => rw [e] at h; cases h
      refine ih u' _ (fun o ho => hf o (List.mem_cons_of_mem _ ho)) ?_ h2
      have ho := hf o (List.mem_cons_self ..)
      cases o with
      | pushBack ans x => exact push_ok hw ho f hu (fun _ => .inl hi) h1
      | reserve ans n =>
        obtain ⟨w, hw1, hw2, _⟩ := reserve_ok hw (ans := ans) (n := n) hu (.inl hi)
        have h1' : u.reserve ans n = .ok u' := h1
        rw [hw1] at h1'; cases h1'
        exact hw2
      | popBack => cases h1; exact readAll_dropLast hu
  exact key os V.empty [] hf rfl h

/-- Pushes and reservations during which `realloc` carries no element elsewhere: it fails, or leaves the block, or there was none. -/
def Reloc.pre {c : Cls} (v : V c) : Op c → Prop
  | .pushBack ans x => c.fits x ∧ ∀ n b, ans n = .moved b → v.items = [] ∨ b = v.base
  | .reserve ans _ => ∀ n b, ans n = .moved b → v.items = [] ∨ b = v.base
  | .popBack => True

/-- Histories with the values they are to leave. -/
inductive Reloc.Hist {c : Cls} (f : Nat) : V c → List c.Val → Prop
  | start : Hist f V.empty []
  | step {v v' xs o} : Hist f v xs → Reloc.pre v o → V.step f v o = .ok v' → Hist f v' (after xs o.effect)

/-- **C167 (partial), elements with their own address.** If construction and move construction work, the elements have the values pushed as long as `realloc`
carries none of them elsewhere. -/
theorem C167_still_partial {c : Cls} (hw : Works c) {f : Nat} {v : V c} {xs : List c.Val} (h : Hist f v xs) : v.toList = .ok xs := by
  induction h with
  | start => rfl
  | @step v v' xs o _ hp hs ih =>
    cases o with
    | pushBack ans x => exact push_ok hw hp.1 f ih (fun _ => .inr hp.2) hs
    | reserve ans n =>
      obtain ⟨w, hw1, hw2, _⟩ := reserve_ok hw (ans := ans) (n := n) ih (.inr hp)
      have h1' : v.reserve ans n = .ok v' := hs
      rw [hw1] at h1'; cases h1'
      exact hw2
    | popBack => cases hs; exact readAll_dropLast ih

namespace Reloc

theorem SV.readFrom_ok {α : Type} {w : Nat} {t : Int} : ∀ {cs : Cells α} {p : Int} {xs : List α}, SV.readFrom w t p cs = .ok xs →
    t = p + w * xs.length ∧ xs.length ≤ cs.length
  | [], p, xs, h => by
    unfold SV.readFrom at h
    split at h
    · cases h; rename_i e; subst e; simp
    · cases h
  | x :: cs, p, xs, h => by
    unfold SV.readFrom at h
    split at h
    · cases h; rename_i e; subst e; simp
    · cases x with
      | live a =>
        simp only [Res.bind_eq_ok] at h
        obtain ⟨ys, hy, h⟩ := h
        cases h
        have ih := SV.readFrom_ok hy
        refine ⟨?_, by simp only [List.length_cons]; omega⟩
        have e := ih.1
        simp only [List.length_cons]
        push_cast
        rw [Int.mul_add, Int.mul_one]
        omega
      | raw => cases h
      | junk => cases h

theorem SV.readFrom_far {α : Type} {w : Nat} {t : Int} : ∀ {cs : Cells α} {p : Int}, (t < p ∨ p + w * cs.length < t) →
    SV.readFrom w t p cs = .ub ∧ SV.cleanFrom w t p cs = .ub
  | [], p, h => by
    have : p ≠ t := by
      intro e
      subst e
      simp at h
    simp [SV.readFrom, SV.cleanFrom, this]
  | x :: cs, p, h => by
    have e : (w : Int) * ((x :: cs).length : Nat) = w * cs.length + w := by
      simp only [List.length_cons]; push_cast; rw [Int.mul_add, Int.mul_one]
    rw [e] at h
    have hge : (0 : Int) ≤ w * cs.length := Int.mul_nonneg (by omega) (by omega)
    have : p ≠ t := by
      intro e
      subst e
      omega
    have ih := SV.readFrom_far (α := α) (w := w) (t := t) (cs := cs) (p := p + w) (by omega)
    unfold SV.readFrom SV.cleanFrom
    rw [if_neg this, if_neg this, ih.1, ih.2]
    cases x <;> simp [Cell.isLive]

theorem SV.readFrom_at {α : Type} {w : Nat} (hw : 0 < w) (k : Nat) : ∀ (xs : List α) (p : Int),
    SV.readFrom w (p + w * xs.length) p (xs.map .live ++ List.replicate k .raw) = .ok xs
  | [], p => by cases k <;> simp [SV.readFrom, List.replicate]
  | x :: xs, p => by
    have e : (w : Int) * ((x :: xs).length : Nat) = w * xs.length + w := by
      simp only [List.length_cons]; push_cast; rw [Int.mul_add, Int.mul_one]
    have hge : (0 : Int) ≤ w * xs.length := Int.mul_nonneg (by omega) (by omega)
    have ih := SV.readFrom_at hw k xs (p + w)
    rw [e, List.map_cons, List.cons_append, SV.readFrom, if_neg (by omega), show p + (w * (xs.length : Int) + w) = p + w + w * xs.length by omega, ih]
    rfl

theorem svWorks {α : Type} {n w : Nat} (hw : 0 < w) : Works (svCls α n w) where
  make a x _ := SV.readFrom_at hw _ x a
  moveTo a b m x h := by
    refine ⟨SV.at n w b x, ?_, SV.readFrom_at hw _ x b⟩
    have h' : SV.readFrom w m.tail a m.cells = .ok x := h
    show (SV.readFrom w m.tail a m.cells >>= fun xs => Res.ok (SV.at n w b xs)) = _
    rw [h']; rfl

theorem vec_getRange_live {α : Type} (xs : List α) : (⟨xs.map .live, xs.length, xs.length⟩ : Vec α).toList = .ok xs := by
  have key : ∀ (ys pre : List α), Cells.getRange ((pre ++ ys).map .live) pre.length ys.length = .ok ys := by
    intro ys
    induction ys with
    | nil => intro pre; rfl
    | cons y ys ih =>
      intro pre
      have := ih (pre ++ [y])
      simp only [List.append_assoc, List.singleton_append, List.length_append, List.length_singleton] at this
      simp only [List.map_append, List.map_cons] at this
      simp [Cells.getRange, Cells.get, this]
  simpa [Vec.toList] using key xs []

theorem vecWorks {α : Type} {k : Nat} : Works (vecCls α k) where
  make _ x _ := vec_getRange_live x
  moveTo _ _ m _ h := ⟨m, rfl, h⟩

theorem hvWorks {α : Type} {n w : Nat} (hw : 0 < w) : Works (hvCls α n w) where
  make a x _ := by
    have key : ∀ x : List α, hvRead w a (hvMake n w a x) = .ok x := by
      intro x
      unfold hvMake
      by_cases h : x.length ≤ n
      · rw [if_pos h]; exact SV.readFrom_at hw _ x a
      · rw [if_neg h]; exact vec_getRange_live x
    exact key x
  moveTo a b m x h := by
    cases m with
    | inl m =>
      refine ⟨.inl (SV.at n w b x), ?_, SV.readFrom_at hw _ x b⟩
      have h' : SV.readFrom w m.tail a m.cells = .ok x := h
      show (SV.readFrom w m.tail a m.cells >>= fun xs => Res.ok (Sum.inl (SV.at n w b xs))) = _
      rw [h']; rfl
    | inr v => exact ⟨.inr v, rfl, h⟩

/-- A vector with room. -/
theorem push_room {c : Cls} {v : V c} {ans : Nat → Ans} (x : c.Val) (h : v.items.length ≠ v.cap) (f : Nat) :
    v.pushBack ans (f + 1) x = .ok { v with items := v.items ++ [c.make (v.base + c.width * v.items.length) x] } := by
  unfold V.pushBack
  rw [if_pos h]

/-- A full vector that grows by `realloc`. -/
theorem push_moved {c : Cls} {v : V c} {ans : Nat → Ans} {b : Int} (x : c.Val) (hfull : v.items.length = v.cap) (hg : v.cap < v.nextCap)
    (ha : ans v.nextCap = .moved b) (f : Nat) :
    v.pushBack ans (f + 2) x = .ok ⟨b, v.items ++ [c.make (b + c.width * v.items.length) x], v.nextCap⟩ := by
  unfold V.pushBack
  rw [if_neg (by omega)]
  unfold V.reserve
  rw [if_pos hg, ha]
  simp only [Res.ok_bind]
  unfold V.pushBack
  rw [if_pos (by show v.items.length ≠ v.nextCap; omega)]

end Reloc

/-- **C167 fails for fixed-capacity vectors** (and hence for hybrid vectors in their first storage). Whenever a vector of them has to grow and `realloc` carries
the block elsewhere, no element keeps its value: it reads differently, or, if the old and the new place of an element do not overlap, reading and
destroying it, even an empty one, are undefined. -/
theorem C167_static_violated {α : Type} {n w : Nat} {v : V (svCls α n w)} {ans : Nat → Ans} {b : Int} (x : List α)
    (hsz : ∀ m ∈ v.items, m.cells.length = n) (hfull : v.items.length = v.cap) (hg : v.cap < v.nextCap) (ha : ans v.nextCap = .moved b) (f : Nat) :
    ∃ v', v.pushBack ans (f + 2) x = .ok v' ∧ ∀ i < v.items.length, ∀ xs, v.at i = .ok xs →
      (b ≠ v.base → v'.at i ≠ .ok xs) ∧
      ((v.base + (svCls α n w).width ≤ b ∨ b + (svCls α n w).width ≤ v.base) →
        v'.at i = .ub ∧ ∀ m, v'.items[i]? = some m → SV.cleanFrom w m.tail (v'.base + (svCls α n w).width * i) m.cells = .ub) := by
  refine ⟨_, push_moved x hfull hg ha f, fun i hi xs hr => ?_⟩
  have hi' : (v.items ++ [(svCls α n w).make (b + (svCls α n w).width * v.items.length) x])[i]? = some v.items[i] := by
    rw [List.getElem?_append_left hi, List.getElem?_eq_getElem hi]
  unfold V.at at hr ⊢
  rw [List.getElem?_eq_getElem hi] at hr
  simp only [hi']
  have hm := hsz _ (List.getElem_mem hi)
  generalize v.items[i] = m at hr hm ⊢
  have h1 : SV.readFrom w m.tail (v.base + (svCls α n w).width * i) m.cells = .ok xs := hr
  have k := SV.readFrom_ok h1
  have hle : (w : Int) * xs.length ≤ w * n := Int.mul_le_mul_of_nonneg_left (by omega) (by omega)
  have h0 : (0 : Int) ≤ w * xs.length := Int.mul_nonneg (by omega) (by omega)
  refine ⟨fun hb hr' => ?_, fun hfar => ?_⟩
  · have h2 : SV.readFrom w m.tail (b + (svCls α n w).width * i) m.cells = .ok xs := hr'
    have := (SV.readFrom_ok h2).1
    omega
  · have hwd : ((svCls α n w).width : Int) = w * n + 8 := by
      show ((n * w + 8 : Nat) : Int) = _
      push_cast; rw [Int.mul_comm (n : Int) w]; omega
    have far : SV.readFrom w m.tail (b + (svCls α n w).width * i) m.cells = .ub ∧ SV.cleanFrom w m.tail (b + (svCls α n w).width * i) m.cells = .ub := by
      refine SV.readFrom_far ?_
      rw [hm]
      omega
    refine ⟨far.1, fun m' hm' => ?_⟩
    cases hm'
    exact far.2

/-- Where it was constructed, a fixed-capacity vector can be cleaned and destroyed: exactly its elements are destroyed. -/
theorem C167_clean_in_place {α : Type} {w : Nat} (hw : 0 < w) (n : Nat) (a : Int) (xs : List α) :
    SV.cleanFrom w (SV.at n w a xs).tail a (SV.at n w a xs).cells = .ok (List.replicate (xs.length + (n - xs.length)) .raw) := by
  have key : ∀ (k : Nat) (xs : List α) (p : Int),
      SV.cleanFrom w (p + w * xs.length) p (xs.map .live ++ List.replicate k .raw) = .ok (List.replicate (xs.length + k) .raw) := by
    intro k xs
    induction xs with
    | nil => intro p; cases k <;> simp [SV.cleanFrom, List.replicate]
    | cons x xs ih =>
      intro p
      have e : (w : Int) * ((x :: xs).length : Nat) = w * xs.length + w := by
        simp only [List.length_cons]; push_cast; rw [Int.mul_add, Int.mul_one]
      have hge : (0 : Int) ≤ w * xs.length := Int.mul_nonneg (by omega) (by omega)
      rw [e, List.map_cons, List.cons_append, SV.cleanFrom, if_neg (by omega), show p + (w * (xs.length : Int) + w) = p + w + w * xs.length by omega, ih]
      simp [Cell.isLive, List.length_cons, Nat.add_right_comm, List.replicate_succ]
  exact key (n - xs.length) xs a

example : SV.cleanFrom 4 (SV.at 3 4 100 [1, 2]).tail 100 (SV.at 3 4 100 [1, 2]).cells = .ok [.raw, .raw, .raw] := by decide +kernel

/-- **C167 fails from nine elements on.** Nine fixed-capacity vectors pushed on an empty vector: the block of eight is carried elsewhere by the ninth push, and
none of the first eight reads as what was pushed. -/
theorem C167_ninth_violated {α : Type} {n w : Nat} (hw : 0 < w) (xs : List (List α)) (x : List α) (hl : xs.length = 8) (hf : ∀ y ∈ xs, y.length ≤ n)
    {ans : Nat → Ans} {b b' : Int} (h8 : ans 8 = .moved b) (h12 : ans 12 = .moved b') (hb : b' ≠ b) :
    ∃ v v' : V (svCls α n w), runOps (V.step 2) V.empty (xs.map (.pushBack ans)) = .ok v ∧ v.toList = .ok xs ∧
      v.pushBack ans 2 x = .ok v' ∧ ∀ i < 8, ∀ y, xs[i]? = some y → v'.at i ≠ .ok y := by
  have key : ∀ (ys done : List (List α)) (u : V (svCls α n w)), (∀ y ∈ ys, y.length ≤ n) → u.items.length + ys.length ≤ 8 → u.cap = 8 → u.base = b →
      u.toList = .ok done → (∀ m ∈ u.items, m.cells.length = n) →
      ∃ v, runOps (V.step 2) u (ys.map (.pushBack ans)) = .ok v ∧ v.items.length = u.items.length + ys.length ∧ v.cap = 8 ∧ v.base = b ∧
        v.toList = .ok (done ++ ys) ∧ ∀ m ∈ v.items, m.cells.length = n := by
    intro ys
    induction ys with
    | nil => intro done u _ _ hc hbb hu hm; exact ⟨u, rfl, rfl, hc, hbb, by simpa using hu, hm⟩
    | cons y ys ih =>
      intro done u hfy hlen hc hbb hu hm
      simp only [List.length_cons] at hlen
      have e : V.step 2 u (.pushBack ans y) = .ok { u with items := u.items ++ [(svCls α n w).make (u.base + (svCls α n w).width * u.items.length) y] } := by
        exact push_room (v := u) (ans := ans) y (by omega) 1
      have hy := hfy y (List.mem_cons_self ..)
      obtain ⟨v, h1, h2, h3, h4, h5, h6⟩ := ih (done ++ [y]) { u with items := u.items ++ [(svCls α n w).make (u.base + (svCls α n w).width * u.items.length) y] }
        (fun z hz => hfy z (List.mem_cons_of_mem _ hz)) (by simp; omega) hc hbb
        (readAll_snoc hu ((svWorks hw).make _ _ hy)) (by
          intro m hm'
          rcases List.mem_append.mp hm' with h | h
          · exact hm m h
          · rw [List.mem_singleton.mp h]
            show (y.map Cell.live ++ List.replicate (n - y.length) Cell.raw).length = n
            simp; omega)
      refine ⟨v, ?_, by rw [h2]; simp; omega, h3, h4, by simpa using h5, h6⟩
      exact (runOps_cons_ok e).trans h1
  obtain ⟨y, ys, rfl⟩ : ∃ y ys, xs = y :: ys := by
    match xs, hl with
    | y :: ys, _ => exact ⟨y, ys, rfl⟩
  have e : V.step 2 (V.empty : V (svCls α n w)) (.pushBack ans y) = .ok ⟨b, [(svCls α n w).make (b + (svCls α n w).width * 0) y], 8⟩ :=
    push_moved (v := (V.empty : V (svCls α n w))) y rfl (by simp [V.empty, V.nextCap]) h8 0
  have hy := hf y (List.mem_cons_self ..)
  simp only [List.length_cons] at hl
  obtain ⟨v, h1, h2, h3, h4, h5, h6⟩ := key ys [y] ⟨b, [(svCls α n w).make (b + (svCls α n w).width * 0) y], 8⟩
    (fun z hz => hf z (List.mem_cons_of_mem _ hz)) (by simp; omega) rfl rfl
    (readAll_snoc (c := svCls α n w) (ms := []) (xs := []) rfl ((svWorks hw).make _ _ hy)) (by
      intro m hm'
      rw [List.mem_singleton.mp hm']
      show (y.map Cell.live ++ List.replicate (n - y.length) Cell.raw).length = n
      simp; omega)
  have h2' : v.items.length = 8 := by rw [h2]; simp; omega
  have hn : v.nextCap = 12 := by unfold V.nextCap; rw [h3]; rfl
  obtain ⟨v', hp, hi⟩ := C167_static_violated (v := v) (ans := ans) (b := b') x h6 (by omega) (by rw [hn, h3]; decide) (by rw [hn]; exact h12) 0
  refine ⟨v, v', ?_, h5, hp, fun i hi8 z hz => ?_⟩
  · exact (runOps_cons_ok e).trans h1
  · refine (hi i (by omega) z ?_).1 (by rw [h4]; exact hb)
    exact readAll_at h5 hz

/-- **C167, hybrid vectors, exactly.** An element still in its first storage is lost when `realloc` carries it elsewhere, one in the second keeps its value. -/
theorem C167_hybrid_exact {α : Type} {n w : Nat} {v : V (hvCls α n w)} {ans : Nat → Ans} {b : Int} (x : List α) (hfull : v.items.length = v.cap)
    (hg : v.cap < v.nextCap) (ha : ans v.nextCap = .moved b) (hb : b ≠ v.base) (f : Nat) :
    ∃ v', v.pushBack ans (f + 2) x = .ok v' ∧ ∀ i < v.items.length, ∀ xs, v.at i = .ok xs →
      (v'.at i = .ok xs ↔ ∃ u, v.items[i]? = some (.inr u)) := by
  refine ⟨_, push_moved x hfull hg ha f, fun i hi xs hr => ?_⟩
  have hi' : (v.items ++ [(hvCls α n w).make (b + (hvCls α n w).width * v.items.length) x])[i]? = some v.items[i] := by
    rw [List.getElem?_append_left hi, List.getElem?_eq_getElem hi]
  unfold V.at at hr ⊢
  rw [List.getElem?_eq_getElem hi] at hr ⊢
  simp only [hi']
  generalize v.items[i] = m at hr ⊢
  cases m with
  | inl m =>
    refine ⟨fun h2 => ?_, fun ⟨u, hu⟩ => by cases hu⟩
    have h1 : SV.readFrom w m.tail (v.base + (hvCls α n w).width * i) m.cells = .ok xs := hr
    have h3 : SV.readFrom w m.tail (b + (hvCls α n w).width * i) m.cells = .ok xs := h2
    have k1 := (SV.readFrom_ok h1).1
    have k2 := (SV.readFrom_ok h3).1
    omega
  | inr u => exact ⟨fun _ => ⟨u, rfl⟩, fun _ => hr⟩

namespace Reloc

theorem slot_far {n w : Nat} {a p : Int} (h : p < a ∨ a + w * n ≤ p) : slot n w a p = none := by
  unfold slot
  rw [if_neg (by omega)]

end Reloc

/-- **C167 fails for circular arrays.** Carried to a place that does not overlap the old one, a queue (whose `head` and `tail` designate cells of its old place)
cannot be used: reading or removing the first element of one that is not empty, and pushing on one that is not full, are undefined. -/
theorem C167_circular_violated {α : Type} {w : Nat} {a b : Int} {m : CA α} (hh : a ≤ m.head ∧ m.head < a + w * m.cells.length)
    (ht : a ≤ m.tail ∧ m.tail < a + w * m.cells.length) (hfar : a + w * m.cells.length ≤ b ∨ b + w * m.cells.length ≤ a) :
    m.front w b = .ub ∧ (m.head ≠ m.tail → m.popFront w b = .ub) ∧ ∀ x, m.size w ≠ m.cells.length - 1 → m.pushBack w b x = .ub := by
  have e1 := slot_far (n := m.cells.length) (w := w) (a := b) (p := m.head) (by omega)
  have e2 := slot_far (n := m.cells.length) (w := w) (a := b) (p := m.tail) (by omega)
  refine ⟨by simp only [CA.front, e1], fun h => by simp only [CA.popFront, if_pos h, e1], fun x h => by simp only [CA.pushBack, if_pos h, e2]⟩

namespace Reloc

/-- Both positions of a queue at address `a` designate cells of its own. -/
def CA.Inside {α : Type} (w : Nat) (a : Int) (m : CA α) : Prop :=
  (∃ i < m.cells.length, m.head = a + w * i) ∧ ∃ j < m.cells.length, m.tail = a + w * j

theorem CA.wrap_inside {α : Type} {w : Nat} (hw : 0 < w) {a : Int} {m : CA α} {p : Int} (h : ∃ i < m.cells.length, p = a + w * i) :
    ∃ i < m.cells.length, m.wrap w a (p + w) = a + w * i := by
  obtain ⟨i, hi, rfl⟩ := h
  unfold CA.wrap
  have e : a + (w : Int) * i + w = a + w * ((i + 1 : Nat) : Int) := by push_cast; rw [Int.mul_add, Int.mul_one]; omega
  rw [e]
  by_cases hl : i + 1 = m.cells.length
  · rw [if_pos (by rw [hl])]
    exact ⟨0, by omega, by simp⟩
  · rw [if_neg (fun h => hl ?_)]
    · exact ⟨i + 1, by omega, rfl⟩
    · have h' : (w : Int) * ((i + 1 : Nat) : Int) = w * (m.cells.length : Int) := by omega
      have := Int.eq_of_mul_eq_mul_left (by omega) h'
      omega

end Reloc

/-- The hypotheses of `C167_circular_violated` hold of every queue: made at an address and used there, its positions designate cells of its own. -/
theorem C167_circular_inside {α : Type} {w : Nat} (hw : 0 < w) {a : Int} :
    (∀ n, (CA.empty n a : CA α).Inside w a) ∧
      (∀ (m m' : CA α) x, m.Inside w a → m.pushBack w a x = .ok m' → m'.Inside w a) ∧
      (∀ m m' : CA α, m.Inside w a → m.popFront w a = .ok m' → m'.Inside w a) ∧
      ∀ m : CA α, m.Inside w a → (a ≤ m.head ∧ m.head < a + w * m.cells.length) ∧ a ≤ m.tail ∧ m.tail < a + w * m.cells.length := by
  refine ⟨fun n => ⟨⟨0, by simp [CA.empty], by simp [CA.empty]⟩, ⟨0, by simp [CA.empty], by simp [CA.empty]⟩⟩, fun m m' x h hp => ?_, fun m m' h hp => ?_, ?_⟩
  · unfold CA.pushBack at hp
    split at hp
    · cases e : slot m.cells.length w a m.tail with
      | none => rw [e] at hp; cases hp
      | some k =>
        rw [e] at hp
        simp only [Res.bind_eq_ok] at hp
        obtain ⟨b, hb, hp⟩ := hp
        cases hp
        unfold Cells.construct at hb
        split at hb
        · cases hb
          have := CA.wrap_inside hw h.2
          exact ⟨by simpa using h.1, by simpa using this⟩
        · cases hb
    · cases hp; exact h
  · unfold CA.popFront at hp
    split at hp
    · cases e : slot m.cells.length w a m.head with
      | none => rw [e] at hp; cases hp
      | some k =>
        rw [e] at hp
        simp only [Res.bind_eq_ok] at hp
        obtain ⟨b, hb, hp⟩ := hp
        cases hp
        have hl : b.length = m.cells.length := by
          unfold Cells.destroy at hb
          split at hb
          · cases hb
          · cases hb; simp
          · cases hb
        have := CA.wrap_inside hw h.1
        exact ⟨by simpa [hl] using this, by simpa [hl] using h.2⟩
    · cases hp; exact h
  · rintro m ⟨⟨i, hi, h1⟩, ⟨j, hj, h2⟩⟩
    have e1 : (w : Int) * i < w * m.cells.length := Int.mul_lt_mul_of_pos_left (by omega) (by omega)
    have e2 : (w : Int) * j < w * m.cells.length := Int.mul_lt_mul_of_pos_left (by omega) (by omega)
    have e3 : (0 : Int) ≤ w * i := Int.mul_nonneg (by omega) (by omega)
    have e4 : (0 : Int) ≤ w * j := Int.mul_nonneg (by omega) (by omega)
    omega

namespace Reloc

/-- Specification: the queue that the other claims about circular arrays speak of, with the positions counted from address `a`. -/
def CA.of {α : Type} (w : Nat) (a : Int) (c : CArr α) : CA α := ⟨c.buf, a + w * c.head, a + w * c.tail⟩

theorem slot_at {n w i : Nat} (hw : 0 < w) (hi : i < n) (a : Int) : slot n w a (a + w * i) = some i := by
  have e1 : (w : Int) * i < w * n := Int.mul_lt_mul_of_pos_left (by omega) (by omega)
  have e2 : (0 : Int) ≤ w * i := Int.mul_nonneg (by omega) (by omega)
  have e3 : a + (w : Int) * i - a = w * i := by omega
  unfold slot
  rw [e3, if_pos ⟨by omega, by omega, Int.mul_emod_right _ _⟩, Int.mul_ediv_cancel_left _ (by omega)]
  simp

theorem CA.wrap_of {α : Type} {w : Nat} (hw : 0 < w) (a : Int) (c : CArr α) (m : CA α) (hm : m.cells.length = c.buf.length) (t : Nat) :
    m.wrap w a (a + w * t + w) = a + w * (c.updateTerminal (t + 1) : Nat) := by
  have e : a + (w : Int) * t + w = a + w * ((t + 1 : Nat) : Int) := by push_cast; rw [Int.mul_add, Int.mul_one]; omega
  unfold CA.wrap CArr.updateTerminal
  rw [e, hm]
  by_cases hl : t + 1 = c.buf.length
  · rw [if_pos (by rw [hl]), if_pos hl]; simp
  · rw [if_neg (fun h => hl ?_), if_neg hl]
    have h' : (w : Int) * ((t + 1 : Nat) : Int) = w * (c.buf.length : Int) := by omega
    have := Int.eq_of_mul_eq_mul_left (by omega) h'
    omega

theorem CA.size_of {α : Type} {w : Nat} (hw : 0 < w) (a : Int) {c : CArr α} (hh : c.head < c.buf.length) (ht : c.tail < c.buf.length) :
    (CA.of w a c).size w = c.size := by
  unfold CA.size CArr.size CArr.capacity CA.of
  simp only
  have e : ∀ x y : Nat, (a + (w : Int) * x - (a + w * y)) / w = (x : Int) - y := by
    intro x y
    rw [show a + (w : Int) * x - (a + w * y) = w * ((x : Int) - y) by rw [Int.mul_sub]; omega, Int.mul_ediv_cancel_left _ (by omega)]
  by_cases h : c.tail < c.head
  · have : (w : Int) * c.tail < w * c.head := Int.mul_lt_mul_of_pos_left (by omega) (by omega)
    rw [if_pos (by omega), if_pos h, e]
    omega
  · have : (w : Int) * c.head ≤ w * c.tail := Int.mul_le_mul_of_nonneg_left (by omega) (by omega)
    rw [if_neg (by omega), if_neg h, e]
    omega

end Reloc

/-- At its own address a queue does what circular arrays do, in every state: its size, its first element, a push and a removal are those of
the circular array with the same cells and the positions counted from that address (so all that C10 and the others say of circular arrays
holds of it until it is carried elsewhere). -/
theorem C167_circular_in_place {α : Type} {w : Nat} (hw : 0 < w) (a : Int) :
    (∀ n, (CA.empty n a : CA α) = CA.of w a (CArr.empty n)) ∧
    ∀ c : CArr α, c.head < c.buf.length → c.tail < c.buf.length →
      (CA.of w a c).size w = c.size ∧ (CA.of w a c).front w a = c.buf.get c.head ∧
      (∀ x, (CA.of w a c).pushBack w a x = (do let c' ← c.pushBack x; .ok (CA.of w a c'))) ∧
      (CA.of w a c).popFront w a = (do let c' ← c.popFront false; .ok (CA.of w a c')) := by
  refine ⟨fun n => by simp [CA.empty, CArr.empty, CA.of], fun c hh ht => ⟨CA.size_of hw a hh ht, ?_, fun x => ?_, ?_⟩⟩
  · simp only [CA.front, CA.of, slot_at hw hh]
  · unfold CA.pushBack CArr.pushBack
    rw [CA.size_of hw a hh ht]
    by_cases h : c.size ≠ c.capacity
    · rw [if_pos (by unfold CArr.capacity at h; simp only [CA.of]; omega), if_pos h]
      simp only [CA.of, slot_at hw ht]
      cases hb : c.buf.construct c.tail x with
      | ok b =>
        simp only [Res.ok_bind]
        rw [CA.wrap_of hw a c ⟨c.buf, a + w * c.head, a + w * c.tail⟩ rfl]
      | ub => rfl
      | loop => rfl
    · rw [if_neg (by unfold CArr.capacity at h; simp only [CA.of]; omega), if_neg h]
      rfl
  · unfold CA.popFront CArr.popFront
    have hne : (CA.of w a c).head ≠ (CA.of w a c).tail ↔ c.head ≠ c.tail := by
      simp only [CA.of]
      constructor
      · intro h e; rw [e] at h; exact h rfl
      · intro h e
        have h' : (w : Int) * c.head = w * c.tail := by omega
        have := Int.eq_of_mul_eq_mul_left (by omega) h'
        omega
    by_cases h : c.head ≠ c.tail
    · rw [if_pos (hne.mpr h), if_pos h]
      simp only [CA.of, slot_at hw hh]
      cases hb : c.buf.destroy false c.head with
      | ok b =>
        simp only [Res.ok_bind]
        rw [CA.wrap_of hw a c ⟨c.buf, a + w * c.head, a + w * c.tail⟩ rfl]
      | ub => rfl
      | loop => rfl
    · rw [if_neg (fun e => h (hne.mp e)), if_neg h]
      rfl

/-- A queue whose positions have wrapped. -/
example : (CA.of 4 100 (⟨[.live 9, .raw, .live 7, .live 8], 2, 1, 0⟩ : CArr Nat)).size 4 = 3 ∧
    (CA.of 4 100 (⟨[.live 9, .raw, .live 7, .live 8], 2, 1, 0⟩ : CArr Nat)).front 4 100 = .ok 7 ∧
    (CA.of 4 100 (⟨[.live 9, .raw, .live 7, .live 8], 2, 1, 0⟩ : CArr Nat)).popFront 4 100 = .ok ⟨[.live 9, .raw, .raw, .live 8], 112, 104⟩ := by decide

/-- The queue of capacity 3 holding 7 and 8, made at address 100, of 4-byte elements. -/
def exQ : Res (CA Nat) := do
  let q ← (CA.empty 3 100).pushBack 4 100 7
  q.pushBack 4 100 8

-- non-vacuity: at its place the queue works, at another it does not
example : exQ = .ok ⟨[.live 7, .live 8, .raw, .raw], 100, 108⟩ := by decide
example : CA.front 4 100 (⟨[.live 7, .live 8, .raw, .raw], 100, 108⟩ : CA Nat) = .ok 7 ∧
    CA.front 4 300 (⟨[.live 7, .live 8, .raw, .raw], 100, 108⟩ : CA Nat) = .ub := by decide

namespace Reloc
open LL

theorem walk_dangling {α : Type} {m : Mem α} {o : Nat} {q : Ptr} (hq : q ≠ .last o) (hnull : q ≠ .null) (hnone : m.cell q = none) :
    ∀ {es : Entries α} {p : Ptr}, Seg m p es q → ∀ f, es.length < f →
      walk m o f (hd es q) = .ub ∧ sizeLoop m o f (hd es q) = .ub := by
  intro es
  induction es with
  | nil =>
    intro p _ f hf
    obtain ⟨f, rfl⟩ : ∃ g, f = g + 1 := ⟨f - 1, by omega⟩
    simp [walk, sizeLoop, load, hq, hnone]
  | cons e es ih =>
    intro p s f hf
    simp only [List.length_cons] at hf
    obtain ⟨f, rfl⟩ : ∃ g, f = g + 1 := ⟨f - 1, by omega⟩
    have := ih s.2 f (by omega)
    rw [walk, sizeLoop, if_neg (by simp), if_neg (by simp)]
    simp only [hd_cons, load, s.1, Res.ok_bind, this.1, this.2, Res.ub_bind, and_self]

theorem cleanLoop_dangling {α : Type} {o : Nat} {q : Ptr} (hq : q ≠ .last o) (hnull : q ≠ .null) (hnode : ∀ n, q ≠ .node n) :
    ∀ {es : Entries α} {m : Mem α} {p : Ptr}, m.cell q = none → Seg m p es q → (addrs es).Nodup → ∀ f, es.length < f →
      cleanLoop m o f (hd es q) = .ub := by
  intro es
  induction es with
  | nil =>
    intro m p hnone _ _ f hf
    obtain ⟨f, rfl⟩ : ∃ g, f = g + 1 := ⟨f - 1, by omega⟩
    simp [cleanLoop, load, hq, hnull, hnone]
  | cons e es ih =>
    intro m p hnone s nd f hf
    obtain ⟨n, a⟩ := e
    simp only [List.length_cons] at hf
    obtain ⟨f, rfl⟩ : ∃ g, f = g + 1 := ⟨f - 1, by omega⟩
    simp only [addrs_cons, List.nodup_cons] at nd
    have s2 : Seg { m with cell := fun q => if q = .node n then none else m.cell q } (.node n) es q := by
      refine seg_frame ?_ s.2
      intro x hx
      have : x.1 ≠ n := fun hh => nd.1 (hh ▸ mem_addrs hx)
      simp [this]
    have := ih (m := { m with cell := fun q => if q = .node n then none else m.cell q }) (by simp [hnode, hnone]) s2 nd.2 f (by omega)
    rw [cleanLoop, if_neg (by simp)]
    simp only [hd_cons, load, s.1, free, Res.ok_bind]
    exact this

end Reloc

/-- **C167 fails for lists.** A list that is not empty, carried elsewhere with the block of the vector it lies in, can be neither counted, nor traversed, nor
destroyed: its last node leads to where the list was. -/
theorem C167_list_violated {α : Type} {m : LL.Mem α} {o o' : Nat} {es : LL.Entries α} (h : LL.LInv m o es) (hne : es ≠ []) (ho : o' ≠ o) {f : Nat}
    (hf : es.length < f) :
    LL.toList f m o = .ok (es.map (·.2)) ∧ LL.size f (Reloc.list m o o') o' = .ub ∧ LL.toList f (Reloc.list m o o') o' = .ub ∧
      LL.clean f (Reloc.list m o o') o' = .ub := by
  have s : LL.Seg (Reloc.list m o o') (.first o) es (.last o) := LL.seg_frame (fun e _ => by simp [Reloc.list]) h.seg
  have hnone : (Reloc.list m o o').cell (.last o) = none := by simp [Reloc.list]
  have hh : (Reloc.list m o o').head o' = LL.hd es (.last o) := by
    show (if o' = o' then m.head o else _) = _
    rw [if_pos rfl, h.head]
    exact LL.hd_eq hne _ _
  have hq : (LL.Ptr.last o) ≠ .last o' := by simpa using Ne.symm ho
  have k := walk_dangling hq (by simp) hnone s f hf
  have k' := cleanLoop_dangling hq (by simp) (by simp) hnone s h.nodup f hf
  refine ⟨LL.toList_ok h hne hf, ?_, ?_, ?_⟩
  · unfold LL.size; rw [hh]; exact k.2
  · unfold LL.toList; rw [hh]; exact k.1
  · unfold LL.clean; rw [hh, k']; rfl

/-- An empty list carried elsewhere is an empty list there. -/
theorem C167_list_empty {α : Type} {m : LL.Mem α} {o o' : Nat} (h : LL.LInv m o []) (ho : o' ≠ o) : LL.LInv (Reloc.list m o o') o' [] := by
  refine ⟨?_, ?_, ?_, ?_, trivial, by simp, by simp, by simp⟩
  · show (if _ then _ else _) = _
    rw [if_neg (by simp [ho])]
    simpa using h.first
  · show (if _ then _ else _) = _
    rw [if_neg (by simp [ho])]
    simpa using h.last
  · show (if o' = o' then m.head o else _) = _
    rw [if_pos rfl, h.head]
  · show (if o' = o' then m.tail o else _) = _
    rw [if_pos rfl, h.tail]

-- non-vacuity: one-element vectors pushed on a vector, whose first block is carried from 1000 to 5000 by the third push
example : Anywhere (vecCls Nat 24) := fun _ _ _ => rfl
example : ¬ Anywhere (svCls Nat 2 4) := fun h => by
  have := h 0 100 ⟨[.live 1, .raw], 4⟩
  revert this
  show SV.readFrom 4 4 0 [.live 1, .raw] = SV.readFrom 4 4 100 ([.live 1, .raw] : Cells Nat) → False
  decide
example : SV.readFrom 4 1004 1000 ([.live 1, .raw] : Cells Nat) = .ok [1] ∧ SV.readFrom 4 1004 5000 ([.live 1, .raw] : Cells Nat) = .ub := by decide
example : ∃ m, LL.pushBack (LL.construct LL.emptyMem 0) 0 5 = .ok m ∧ LL.toList 9 m 0 = .ok [5] ∧ LL.toList 9 (Reloc.list m 0 1) 1 = .ub := by
  refine ⟨_, rfl, ?_, ?_⟩ <;> decide
example : ((V.reserve (fun _ => .moved 7) (⟨0, [], 0⟩ : V (svCls Nat 2 4)) 3).bind fun v => v.pushBack (fun _ => .fail) 1 ([4] : List Nat)) =
    .ok ⟨7, [⟨[.live 4, .raw], 11⟩], 3⟩ := rfl

example : ∃ v : V (vecCls Nat 24), runOps (V.step 3) V.empty [.reserve (fun _ => .moved 8) 1, .pushBack (fun _ => .fail) ([4] : List Nat),
    .reserve (fun _ => .moved 900) 2, .pushBack (fun _ => .fail) ([5, 6] : List Nat)] = .ok v ∧ v.base = 900 ∧ v.items.length = 2 := ⟨_, rfl, rfl, rfl⟩
example : ∃ v : V (svCls Nat 2 4), Hist 3 v [([4] : List Nat), ([5] : List Nat)] ∧ v.base = 900 ∧ v.cap = 3 := by
  refine ⟨⟨900, [SV.at 2 4 900 [4], SV.at 2 4 916 [5]], 3⟩, ?_, rfl, rfl⟩
  refine .step (c := svCls Nat 2 4) (v := ⟨900, [SV.at 2 4 900 [4]], 3⟩) (xs := [([4] : List Nat)]) (o := .pushBack (fun _ => .fail) ([5] : List Nat)) ?_
    ⟨by show (1 : Nat) ≤ 2; decide, fun _ _ h => by cases h⟩ rfl
  refine .step (c := svCls Nat 2 4) (v := ⟨8, [SV.at 2 4 8 [4]], 1⟩) (xs := [([4] : List Nat)]) (o := .reserve (fun _ => .created 900) 3) ?_ (fun _ _ h => by cases h) rfl
  refine .step (c := svCls Nat 2 4) (v := ⟨8, [], 1⟩) (xs := ([] : List (List Nat))) (o := .pushBack (fun _ => .fail) ([4] : List Nat)) ?_
    ⟨by show (1 : Nat) ≤ 2; decide, fun _ _ h => by cases h⟩ rfl
  exact .step (c := svCls Nat 2 4) (v := V.empty) (xs := ([] : List (List Nat))) (o := .reserve (fun _ => .moved 8) 1) .start (fun _ _ _ => .inl rfl) rfl

namespace Flame
open Reloc
example := C167_circular_inside (α := Nat) (w := 4) (by decide) (a := 100)
example := C167_circular_violated (w := 4) (a := 100) (b := 300) (m := (⟨[.live 7, .live 8, .raw, .raw], 100, 108⟩ : CA Nat)) (by decide) (by decide)
  (by decide)
example := C167_hybrid_exact (n := 2) (w := 4)
  (v := (⟨100, [.inl (SV.at 2 4 100 [4]), .inr ⟨[.live 1, .live 2, .live 3], 3, 3⟩], 2⟩ : V (hvCls Nat 2 4))) (ans := fun _ => .moved 900) (b := 900)
  [5] rfl (by decide) rfl (by decide) 0
example := C167_static_violated (n := 2) (w := 4) (v := (⟨100, [SV.at 2 4 100 [4], SV.at 2 4 116 [6]], 2⟩ : V (svCls Nat 2 4))) (ans := fun _ => .moved 900) (b := 900)
  [5] (by decide) rfl (by decide) rfl 0
example := C167_ninth_violated (n := 2) (w := 4) (by decide) [[1], [2], [3], [4], [5], [6], [7], [8, 9]] [10] rfl (by decide)
  (ans := fun k => if k = 8 then .moved 100 else .moved 900) rfl rfl (by decide)
example : ∃ (m : LL.Mem Nat) (es : LL.Entries Nat), LL.LInv m 0 es ∧ LL.toList 9 (Reloc.list m 0 1) 1 = .ub := by
  obtain ⟨m, _, p⟩ := LL.pushBack_ok (LL.construct_ok (LL.emptyMem : LL.Mem Nat) 0) 4
  exact ⟨m, _, p.inv, (C167_list_violated p.inv (by simp) (by decide) (f := 9) (by simp)).2.2.1⟩
example := C167_anywhere_partial (c := vecCls Nat 24) vecWorks (fun _ _ _ => rfl) (f := 3)
  (os := [.reserve (fun _ => .moved 8) 1, .pushBack (fun _ => .fail) ([4] : List Nat), .reserve (fun _ => .moved 900) 2,
    .pushBack (fun _ => .fail) ([5, 6] : List Nat)]) (by intro o h; simp only [List.mem_cons, List.not_mem_nil, or_false] at h; rcases h with rfl | rfl | rfl | rfl <;> trivial) rfl
example := C167_still_partial (c := svCls Nat 2 4) (svWorks (by decide)) (f := 3) (.step (c := svCls Nat 2 4) (v := V.empty) (xs := ([] : List (List Nat)))
  (o := .reserve (fun _ => .moved 8) 1) .start (fun _ _ _ => .inl rfl) rfl)
end Flame

end Flame
