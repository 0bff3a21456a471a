import Verif.Vector.Props
import Verif.String.Props
import Verif.List.Props
import Verif.Hybrid.CopiesProps

/-!
# C180: a container that was moved from can be used like a new one

What is left of a container by its move constructor, used afterwards through any number of calls.
-/

namespace Flame

/-! ### What the caller may still do with what is left of a `Vector` -/

namespace MovedSpec
variable {α : Type u}
open Vec (Op)

/-- How many elements a call adds. -/
def adds : Op α → Nat
  | .pushBack _ | .insert _ _ | .emplace _ _ => 1
  | .insertRange _ xs => xs.length
  | _ => 0

/-- How many elements the call demands room for. -/
def wants : Op α → Nat
  | .reserve n => n
  | o => adds o

/-- The history touches a vector, whose capacity was `c` when it was moved from, only in ways it stands: the first call that demands room for more than
`c` elements comes before any call that adds some. -/
def Usable (c : Nat) : List (Op α) → Prop
  | [] => True
  | o :: os => if c < wants o then True else if adds o = 0 then Usable c os else False

instance decUsable (c : Nat) : (os : List (Op α)) → Decidable (Usable c os)
  | [] => isTrue trivial
  | o :: os =>
    have := decUsable c os
    inferInstanceAs (Decidable (if c < wants o then True else if adds o = 0 then Usable c os else False))

end MovedSpec

open Vec VecSpec MovedSpec
variable {α : Type u}

namespace Vec

/-- Capacities never shrink. -/
theorem step_cap_le {triv : Bool} {can : Nat → Bool} (hcan : ∀ n, can n = true) {v v' : Vec α} {l : List α} (h : Rep v l) (hc : v.cap ≠ 1) (o : Op α)
    (hv : valid l o) (ht : triv = true ∨ ¬ erasesMiddle l o) (f : Nat) (e : step triv can (f + 3) v o = .ok v') : v.cap ≤ v'.cap := by
  have hsz := h.2.1
  have hn := nextCap_gt hc
  have hs : ¬ (v.size = 1 ∧ v.cap = 1) := fun x => hc x.2
  cases o with
  | pushBack x =>
    obtain ⟨w, a, _, c, _⟩ := pushBack_ok hcan (f := f + 1) h hs x
    simp only [step] at e; rw [a] at e; cases e; rw [c]; split <;> omega
  | popBack =>
    obtain ⟨w, a, _, c, _⟩ := popBack_ok (triv := triv) h
    simp only [step] at e; rw [a] at e; cases e; omega
  | insert p x =>
    obtain ⟨w, a, _, _, c, _⟩ := insert_ok (triv := triv) hcan (f := f) h x (p := p) (by rw [hsz]; exact hv) hs
    simp only [step] at e; rw [a] at e; cases e; rw [c]; split <;> omega
  | emplace p x =>
    obtain ⟨w, _, a, _, c, _⟩ := insert_ok (triv := triv) hcan (f := f) h x (p := p) (by rw [hsz]; exact hv) hs
    simp only [step] at e; rw [a] at e; cases e; rw [c]; split <;> omega
  | insertRange p xs =>
    obtain ⟨w, a, _, c, _⟩ := insertRange_ok (triv := triv) hcan (f := f) (xs := xs) h (p := p) (by rw [hsz]; exact hv)
    simp only [step] at e; rw [a] at e; cases e; rw [c]; split <;> omega
  | erase p =>
    obtain ⟨w, a, _, c, _⟩ := erase_ok (triv := triv) h (p := p) (by rw [hsz]; exact hv)
    simp only [step] at e; rw [a] at e; cases e; omega
  | eraseRange b e' =>
    have hv' : b ≤ l.length ∧ e' ≤ l.length := hv
    by_cases hbe : b ≤ e'
    · obtain ⟨w, a, _, c, _⟩ := eraseRange_ok (triv := triv) h hbe (by omega)
        (by
          rcases ht with h | h
          · exact Or.inl h
          · have : ¬ (b < e' ∧ e' < l.length) := h
            omega)
      simp only [step] at e; rw [a] at e; cases e; omega
    · simp only [step, eraseRange] at e
      rw [if_neg (by omega), if_pos (by omega)] at e
      cases e; exact Nat.le_refl _
  | reserve n => cases e; rw [reserve_cap n (hcan n)]; omega
  | clean =>
    obtain ⟨w, a, _, c, _⟩ := clean_ok (triv := triv) h
    simp only [step] at e; rw [a] at e; cases e; omega

/-- With a capacity of two or more every valid history completes. -/
theorem run_roomy {triv : Bool} {can : Nat → Bool} (hcan : ∀ n, can n = true) (f : Nat) : ∀ (ops : List (Op α)) (v : Vec α) (l : List α), Rep v l →
    2 ≤ v.cap → ValidHist triv l ops → ∃ v', runOps (step triv can (f + 3)) v ops = .ok v' ∧ Rep v' (VecSpec.run l ops) := by
  intro ops
  induction ops with
  | nil => intro v l h _ _; exact ⟨v, rfl, h⟩
  | cons o os ih =>
    intro v l h hc ⟨hv1, hv2, hv3⟩
    rcases C01_step hcan h o hv1 hv2 f with ⟨v', a, b, _⟩ | ⟨_, hc', _⟩
    · rw [runOps_cons_ok a]
      exact ih v' _ b (Nat.le_trans hc (step_cap_le hcan h (by omega) o hv1 hv2 f a)) hv3
    · omega

/-- What a vector of capacity `c` is once it was moved from. -/
abbrev husk (α : Type u) (c : Nat) : Vec α := ⟨[], c, 0⟩

/-- A call that demands more room than the vector had gives it storage again. -/
theorem husk_renew {triv : Bool} {can : Nat → Bool} (hcan : ∀ n, can n = true) {c : Nat} (hc : c ≠ 0) (o : Op α) (hv : valid [] o) (hw : c < wants o) (f : Nat) :
    ∃ v', step triv can (f + 3) (husk α c) o = .ok v' ∧ Rep v' (VecSpec.apply [] o) ∧ 2 ≤ v'.cap := by
  have res : ∀ n, c < n → Rep ((husk α c).reserve can n) [] ∧ ((husk α c).reserve can n).cap = n ∧ ((husk α c).reserve can n).size = 0 := by
    intro n hn
    have e : (husk α c).reserve can n = ⟨List.replicate n .raw, n, 0⟩ := by simp [Vec.reserve, hn, hcan]
    rw [e]
    exact ⟨⟨by simp, rfl, List.replicate n .raw, by simp⟩, rfl, rfl⟩
  cases o with
  | reserve n =>
    obtain ⟨a, b, _⟩ := res n hw
    exact ⟨_, rfl, a, by rw [b]; have : c < n := hw; omega⟩
  | insertRange p xs =>
    have hw' : c < xs.length := hw
    have hp : p = 0 := by simpa [valid] using hv
    subst hp
    obtain ⟨a, b, d⟩ := res (c + xs.length) (by omega)
    obtain ⟨w, e, g, i, _⟩ := insertRange_room (triv := triv) (can := can) (f := f) (xs := xs) a (p := 0) (Nat.zero_le _) (by rw [b, d]; omega)
    refine ⟨w, ?_, by simpa [VecSpec.apply] using g, by rw [i, b]; omega⟩
    have : ¬ xs.length + 0 ≤ c := by omega
    simp only [step]
    rw [Vec.insertRange, if_neg (Nat.lt_irrefl 0), if_neg (by omega), if_neg this]
    exact e
  | pushBack x => have : c < 1 := hw; omega
  | insert p x => have : c < 1 := hw; omega
  | emplace p x => have : c < 1 := hw; omega
  | popBack => exact absurd hw (Nat.not_lt_zero _)
  | erase p => exact absurd hw (Nat.not_lt_zero _)
  | eraseRange b e => exact absurd hw (Nat.not_lt_zero _)
  | clean => exact absurd hw (Nat.not_lt_zero _)

/-- A call that adds nothing and demands nothing new leaves the vector without storage. -/
theorem husk_idle (triv : Bool) (can : Nat → Bool) {c : Nat} (o : Op α) (hv : valid [] o) (hw : ¬ c < wants o) (ha : adds o = 0) (f : Nat) :
    step triv can (f + 3) (husk α c) o = .ok (husk α c) ∧ VecSpec.apply ([] : List α) o = [] := by
  cases o with
  | reserve n =>
    have hw' : ¬ c < n := hw
    exact ⟨by simp only [step, Vec.reserve]; rw [if_neg hw'], rfl⟩
  | insertRange p xs =>
    have hx : xs = [] := List.length_eq_zero_iff.mp ha
    have hp : p = 0 := by simpa [valid] using hv
    subst hx; subst hp
    exact ⟨by simp [step, Vec.insertRange], rfl⟩
  | pushBack x => exact absurd ha (by simp [adds])
  | insert p x => exact absurd ha (by simp [adds])
  | emplace p x => exact absurd ha (by simp [adds])
  | popBack => exact ⟨by simp [step, Vec.popBack], rfl⟩
  | erase p =>
    have hp : p = 0 := by simpa [valid] using hv
    subst hp
    exact ⟨by simp [step, Vec.erase], rfl⟩
  | eraseRange b e =>
    have hp : b ≤ 0 ∧ e ≤ 0 := hv
    obtain ⟨rfl, rfl⟩ : b = 0 ∧ e = 0 := by omega
    exact ⟨by simp [step, Vec.eraseRange, Vec.clean, Cells.destroyRange], by simp [VecSpec.apply]⟩
  | clean => exact ⟨by simp [step, Vec.clean, Cells.destroyRange], rfl⟩

/-- A call that adds elements within the old capacity writes through the null pointer. -/
theorem husk_touch (triv : Bool) (can : Nat → Bool) {c : Nat} (o : Op α) (hv : valid [] o) (hw : ¬ c < wants o) (ha : adds o ≠ 0) (f : Nat) :
    step triv can (f + 3) (husk α c) o = .ub := by
  have push : ∀ g x, c ≠ 0 → Vec.pushBack can (g + 1) (husk α c) x = .ub := by
    intro g x hc
    simp [Vec.pushBack, Cells.construct, Ne.symm hc]
  cases o with
  | pushBack x =>
    have hw' : ¬ c < 1 := hw
    exact push _ x (by omega)
  | insert p x =>
    have hw' : ¬ c < 1 := hw
    have hp : p = 0 := by simpa [valid] using hv
    subst hp
    simp only [step, Vec.insert, Nat.lt_irrefl, if_false, show 0 < c by omega, if_true]
    exact push _ x (by omega)
  | emplace p x =>
    have hw' : ¬ c < 1 := hw
    have hp : p = 0 := by simpa [valid] using hv
    subst hp
    simp only [step, Vec.emplace, Nat.lt_irrefl, if_false, show 0 < c by omega, if_true]
    exact push _ x (by omega)
  | insertRange p xs =>
    have hw' : ¬ c < xs.length := hw
    have ha' : xs.length ≠ 0 := ha
    have hp : p = 0 := by simpa [valid] using hv
    subst hp
    simp only [step, Vec.insertRange, Nat.lt_irrefl, if_false, ha', Nat.add_zero, show xs.length ≤ c by omega, if_true]
    match xs, ha' with
    | x :: xs, _ => simp only [Vec.pushBackList, push _ x (show c ≠ 0 by simp at hw'; omega), Res.ub_bind]
  | reserve n => exact absurd rfl ha
  | popBack => exact absurd rfl ha
  | erase p => exact absurd rfl ha
  | eraseRange b e => exact absurd rfl ha
  | clean => exact absurd rfl ha

end Vec

/-- **C180 for `Vector`, exactly.**  What is left of a vector that had storage behaves as an empty vector through a history precisely if the history
demands more room than the vector used to have before it adds anything; otherwise the first call that adds something writes through a null pointer. -/
theorem C180_vector_exact {triv : Bool} {can : Nat → Bool} (hcan : ∀ n, can n = true) {v : Vec α} (hc : v.cap ≠ 0) (ops : List (Op α))
    (hv : ValidHist triv [] ops) (f : Nat) :
    (Usable v.cap ops → ∃ v', runOps (Vec.step triv can (f + 3)) v.moveCtor.2 ops = .ok v' ∧ v'.toList = .ok (VecSpec.run [] ops) ∧
        v'.size = (VecSpec.run [] ops).length) ∧
    (¬ Usable v.cap ops → runOps (Vec.step triv can (f + 3)) v.moveCtor.2 ops = .ub) := by
  show (_ → ∃ v', runOps (Vec.step triv can (f + 3)) (husk α v.cap) ops = .ok v' ∧ _) ∧ (_ → runOps (Vec.step triv can (f + 3)) (husk α v.cap) ops = .ub)
  induction ops with
  | nil => exact ⟨fun _ => ⟨_, rfl, rfl, rfl⟩, fun h => absurd trivial h⟩
  | cons o os ih =>
    obtain ⟨hv1, _, hv3⟩ := hv
    by_cases hw : v.cap < wants o
    · refine ⟨fun _ => ?_, fun h => absurd (by simp [Usable, hw]) h⟩
      obtain ⟨v1, a, b, d⟩ := husk_renew (triv := triv) hcan hc o hv1 hw f
      obtain ⟨v2, e, g⟩ := run_roomy hcan f os v1 _ b d hv3
      obtain ⟨i, j, _⟩ := rep_observe g
      exact ⟨v2, by rw [runOps_cons_ok a]; exact e, i, j⟩
    · by_cases ha : adds o = 0
      · obtain ⟨a, b⟩ := husk_idle triv can o hv1 hw ha f
        rw [b] at hv3
        simp only [runOps_cons_ok a, Usable, hw, ha, if_false, if_true, VecSpec.run, b]
        exact ih hv3
      · have a := husk_touch triv can o hv1 hw ha f
        refine ⟨fun h => absurd h (by simp [Usable, hw, ha]), fun _ => by simp [runOps, a]⟩

example : (⟨[.live 7, .raw, .raw], 3, 1⟩ : Vec Nat).cap ≠ 0 ∧
    ValidHist false [] [Op.popBack, .reserve 3, .insertRange 0 [1, 2, 3, 4], .pushBack 9, .erase 1] ∧
    Usable 3 [Op.popBack, .reserve 3, .insertRange 0 [1, 2, 3, 4], .pushBack 9, .erase 1] ∧
    VecSpec.run [] [Op.popBack, .reserve 3, .insertRange 0 [1, 2, 3, 4], .pushBack 9, .erase 1] = [1, 3, 4, 9] ∧
    ¬ Usable 3 [Op.clean, .insertRange 0 [1, 2, 3]] := by decide

/-- **C180 for `HybridVector`**: the same is left of one that was in heap storage; one whose elements lay within it keeps as many as it had. -/
theorem C180_hybrid_violated {α : Type} (moved : α → α) {can : Nat → Bool} {N : Nat} {v : Vec α} (hc : v.cap ≠ 0) (x : α) (f : Nat) :
    (∃ c s, HVec.moveCtor moved (.vec v) = .ok (c, s) ∧ s.size = 0 ∧ s.pushBack can N (f + 1) x = .ub) ∧
    ∀ {s : SVec α} {l : List α}, HVec.Holds N (.arr s) l → ∃ c t, HVec.moveCtor moved (.arr s) = .ok (c, t) ∧ t.Shows (l.map moved) := by
  refine ⟨C131_append_to_moved_from_ub moved can N f hc x, fun {s l} h => ?_⟩
  obtain ⟨c, t, a, _, _, b⟩ := C131_move_partial moved h
  exact ⟨c, t, a, b⟩

example : (⟨[.live 7, .raw, .raw], 3, 1⟩ : Vec Nat).cap ≠ 0 := by decide

/-! ### `String` and `List` -/

/-- **C180 for `String`**: what is left is a default constructed string; every history without `insert` shows the characters it should. -/
theorem C180_string_partial {α : Type} [DecidableEq α] {z : α} (t : Str α) (os : List (StrSpec.Op α)) (hv : StrSpec.ValidHist z [] os)
    (hi : ∀ i c, StrSpec.Op.insert i c ∉ os) (f : Nat) :
    ∃ s', runOps (Str.step z (f + 3)) (Str.moveCtor t).2 os = .ok s' ∧
      (Str.Shows z s' (StrSpec.run [] os) ∨ (s' = Str.empty ∧ StrSpec.run [] os = [])) :=
  C16_history_default os hv hi f

example : StrSpec.ValidHist (0 : Nat) [] [.popBack, .append [5, 6, 7] [1], .erase 1] ∧
    ∀ i c, StrSpec.Op.insert i c ∉ ([.popBack, .append [5, 6, 7] [1], .erase 1] : List (StrSpec.Op Nat)) := ⟨by decide, by simp⟩

/-- **C180 for `List`**: what is left of a list with elements goes through every history inside the supported region of C14 as a new list does, and the
list that took the elements over keeps them, linked as they were. -/
theorem C180_list_partial {α : Type} {m : LL.Mem α} {s d : Nat} {es : LL.Entries α} (hs : LL.LInv m s es) (hsd : s ≠ d) (hne : es ≠ [])
    (ops : List (ListSpec.Op α)) (hv : ListSpec.SafeHist [] ops) :
    ∃ m1 m2 es', LL.moveCtor m d s = .ok m1 ∧ runOps (LL.step s) m1 ops = .ok m2 ∧ LL.LInv m2 s es' ∧ es'.map (·.2) = ListSpec.run [] ops ∧
      LL.LInv m2 d es := by
  obtain ⟨m1, a, b, c, _⟩ := LL.moveCtor_ok hs hsd hne
  have key : ∀ (ops : List (ListSpec.Op α)) {m : LL.Mem α} {D : LL.Entries α} {l : List α}, LL.LInv m s D → D.map (·.2) = l → LL.LInv m d es →
      LL.Disj es D → ListSpec.SafeHist l ops →
      ∃ m' D', runOps (LL.step s) m ops = .ok m' ∧ LL.LInv m' s D' ∧ D'.map (·.2) = ListSpec.run l ops ∧ LL.LInv m' d es := by
    intro ops
    induction ops with
    | nil => intro m D l h1 h2 h3 _ _; exact ⟨m, D, rfl, h1, h2, h3⟩
    | cons op ops ih =>
      intro m D l h1 h2 h3 h4 h5
      obtain ⟨m', D', e, g, p⟩ := C14_step h1 h2 op h5.1
      obtain ⟨q, r⟩ := p.other h3 (Ne.symm hsd) h4
      obtain ⟨m'', D'', t, u⟩ := ih p.inv g q r h5.2
      exact ⟨m'', D'', by rw [runOps_cons_ok e]; exact t, u⟩
  obtain ⟨m2, es', e, g, i, j⟩ := key ops c rfl b (by intro n _ h; simp [LL.addrs] at h) hv
  exact ⟨m1, m2, es', a, e, g, i, j⟩

/-- A list of two elements to move from, and a history for what is left of it. -/
example : (∃ (m : LL.Mem Nat) (es : LL.Entries Nat), LL.LInv m 0 es ∧ es ≠ []) ∧
    ListSpec.SafeHist ([] : List Nat) [.pushBack 1, .pushFront 0, .popBack, .clean, .pushBack 3] := by
  refine ⟨?_, by decide⟩
  obtain ⟨m, es, _, h, _, e⟩ := LL.hist (o := 0) [.pushBack 4, .pushBack 5] (LL.construct_ok LL.emptyMem 0) (LL.new_exact 0) rfl (by decide)
  exact ⟨m, es, h, fun h0 => by rw [h0] at e; simp [ListSpec.run, ListSpec.apply] at e⟩

end Flame
