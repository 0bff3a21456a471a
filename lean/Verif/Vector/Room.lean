import Verif.Vector.RelocProps

/-! # C168: references into a `Vector` with reserved room -/

namespace Flame
namespace Reloc
variable {c : Cls}

/-- The elements `xs` constructed one after the other from address `a`. -/
def made (c : Cls) : Int → List c.Val → List c.Mem
  | _, [] => []
  | a, x :: xs => c.make a x :: made c (a + c.width) xs

/-- The calls that append `xs`, each with its own answers of the allocator. -/
def pushes (xs : List ((Nat → Ans) × c.Val)) : List (Op c) := xs.map fun p => .pushBack p.1 p.2

theorem pushes_room (f : Nat) : ∀ (xs : List ((Nat → Ans) × c.Val)) (v : V c), v.items.length + xs.length ≤ v.cap →
    runOps (V.step (f + 1)) v (pushes xs) =
      .ok { v with items := v.items ++ made c (v.base + c.width * v.items.length) (xs.map (·.2)) } := by
  intro xs
  induction xs with
  | nil => intro v _; simp [pushes, made, runOps]
  | cons p xs ih =>
    intro v h
    simp only [List.length_cons] at h
    have e : V.step (f + 1) v (.pushBack p.1 p.2) = .ok { v with items := v.items ++ [c.make (v.base + c.width * v.items.length) p.2] } :=
      push_room p.2 (by omega) f
    refine (runOps_cons_ok e).trans ((ih _ (by simp; omega)).trans ?_)
    simp only [List.map_cons, made, List.append_assoc, List.singleton_append, List.length_append, List.length_singleton]
    have : v.base + (c.width : Int) * ((v.items.length + 1 : Nat) : Int) = v.base + c.width * v.items.length + c.width := by
      rw [Int.natCast_add, Int.mul_add]; simp; omega
    rw [this]

end Reloc
open Reloc

/-- **C168, vectors with room.** After a `reserve` the allocator granted, appending up to the reserved size neither moves nor touches the elements there are,
whatever the allocator answers later (it is not asked). -/
theorem C168_vector_room {c : Cls} {v v' : V c} {ans : Nat → Ans} {n : Nat} (hr : v.reserve ans n = .ok v') (ha : ans n ≠ .fail)
    (xs : List ((Nat → Ans) × c.Val)) (hl : v.items.length + xs.length ≤ n) (f : Nat) :
    ∃ w, runOps (V.step (f + 1)) v' (pushes xs) = .ok w ∧ w.base = v'.base ∧ w.cap = v'.cap ∧ v'.items <+: w.items ∧
      w.items.length = v.items.length + xs.length ∧ ∀ i < v.items.length, w.at i = v'.at i := by
  have hlen : ∀ {a b : Int} {ms ms' : List c.Mem}, moveAll c a b ms = .ok ms' → ms'.length = ms.length := by
    intro a b ms
    induction ms generalizing a b with
    | nil => intro ms' h; cases h; rfl
    | cons m ms ih =>
      intro ms' h
      simp only [moveAll, Res.bind_eq_ok] at h
      obtain ⟨x, _, ys, hy, e⟩ := h
      cases e
      simp [ih hy]
  have hv : v'.items.length = v.items.length ∧ n ≤ v'.cap := by
    unfold V.reserve at hr
    split at hr
    · split at hr
      · cases hr; simp
      · simp only [Res.bind_eq_ok] at hr
        obtain ⟨ms, hm, e⟩ := hr
        cases e
        exact ⟨hlen hm, Nat.le_refl _⟩
      · rename_i e; exact absurd e ha
    · cases hr; exact ⟨rfl, by omega⟩
  have hm : ∀ (a : Int) (ys : List c.Val), (made c a ys).length = ys.length := by
    intro a ys
    induction ys generalizing a with
    | nil => rfl
    | cons y ys ih => simp [made, ih]
  refine ⟨_, pushes_room f xs v' (by omega), rfl, rfl, ⟨_, rfl⟩, by simp [hm, hv.1], fun i hi => ?_⟩
  simp only [V.at]
  rw [List.getElem?_append_left (by omega)]

/-- **C168 ends where the room ends.** The first append that finds the vector full puts the elements wherever the allocator likes: a reference to any of them
stays valid only if `realloc` happens to leave the block in place. -/
theorem C168_vector_full {c : Cls} {v : V c} {ans : Nat → Ans} {b : Int} (x : c.Val) (hfull : v.items.length = v.cap) (hg : v.cap ≠ 1)
    (ha : ans v.nextCap = .moved b) (f : Nat) : ∃ w, V.step (f + 2) v (.pushBack ans x) = .ok w ∧ w.base = b ∧ w.cap = v.nextCap := by
  refine ⟨_, push_moved x hfull ?_ ha f, rfl, rfl⟩
  unfold V.nextCap
  split <;> omega

-- non-vacuity: ten elements reserved, three pushed; the ninth of a vector that reserved nothing moves
example : ∃ w : V (vecCls Nat 24), runOps (V.step 1) (⟨800, [], 10⟩ : V (vecCls Nat 24)) (pushes [(fun _ => .fail, [1]), (fun _ => .moved 5, [2]), (fun _ => .fail, [])])
    = .ok w ∧ w.base = 800 ∧ w.items.length = 3 := ⟨_, rfl, rfl, rfl⟩
example : (V.reserve (fun _ => .moved 800) (V.empty : V (vecCls Nat 24)) 10) = .ok ⟨800, [], 10⟩ := rfl
example : (⟨0, List.replicate 8 ⟨[], 0, 0⟩, 8⟩ : V (vecCls Nat 24)).items.length = 8 := rfl

namespace Flame
open Reloc
example := C168_vector_room (c := vecCls Nat 24) (v := V.empty) (v' := ⟨800, [], 10⟩) (ans := fun _ => .moved 800) (n := 10) rfl (by decide)
  [(fun _ => .fail, ([1] : List Nat)), (fun _ => .moved 5, ([2] : List Nat)), (fun _ => .fail, ([] : List Nat))] (by decide) 0
end Flame

end Flame
