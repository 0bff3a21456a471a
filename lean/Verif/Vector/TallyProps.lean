import Verif.Vector.TallyLemmas

/-!
# Every object a `Vector` constructs is destroyed, or counted (C56)

The specification counts, on the mathematical sequence, the calls that lose an object; it knows nothing of storage.
-/

namespace Flame
open Vec VecSpec
variable {α : Type u}

namespace VecSpec

/-- Objects lost by one call on the sequence `l`: an inner `erase` forgets one, an inner `emplace` constructs over one. -/
def lost (l : List α) : Op α → Nat
  | .erase p => if p + 1 < l.length then 1 else 0
  | .emplace p _ => if p < l.length then 1 else 0
  | _ => 0

/-- Objects lost by a history. -/
def lostOver (l : List α) : List (Op α) → Nat
  | [] => 0
  | o :: os => lost l o + lostOver (apply l o) os

end VecSpec

/-- One call: the counting functions do what the plain ones do, and the balance changes by what the call loses. -/
theorem stepT_bal {triv : Bool} {can re : Nat → Bool} {f : Nat} {v v' : Vec α} {o : Op α} (h : step triv can f v o = .ok v')
    {l : List α} (hl : v.size = l.length) {t : Tally} {k : Nat} (hb : Bal t v.size k) :
    ∃ t', stepT triv can re f (v, t) o = .ok (v', t') ∧ Bal t' v'.size (k + lost l o) := by
  cases o with
  | pushBack x => exact pushBackT_ok h hb
  | popBack => exact popBackT_ok h hb
  | insert p x => exact insertT_ok h hb
  | emplace p x => simp only [lost, ← hl]; exact emplaceT_ok h hb
  | insertRange p xs => exact insertRangeT_ok h hb
  | erase p => simp only [lost, ← hl]; exact eraseT_ok h hb
  | eraseRange b e => exact eraseRangeT_ok h hb
  | reserve n =>
    simp only [step, Res.ok.injEq] at h; subst h
    exact ⟨_, rfl, (reserveT_bal hb).2⟩
  | clean => exact cleanT_ok h hb

theorem runT_bal {triv : Bool} {can re : Nat → Bool} (hcan : ∀ n, can n = true) {f : Nat} (ops : List (Op α)) :
    ∀ {v v' : Vec α} {l : List α}, Rep v l → ValidHist triv l ops → runOps (step triv can (f + 3)) v ops = .ok v' →
    ∀ {t : Tally} {k : Nat}, Bal t v.size k →
    ∃ t', runOps (stepT triv can re (f + 3)) (v, t) ops = .ok (v', t') ∧ Bal t' v'.size (k + lostOver l ops) ∧ Rep v' (VecSpec.run l ops) := by
  induction ops with
  | nil => intro v v' l h _ hr t k hb; simp only [runOps, Res.ok.injEq] at hr; subst hr; exact ⟨t, rfl, hb, h⟩
  | cons o os ih =>
    intro v v' l h ⟨hv1, hv2, hv3⟩ hr t k hb
    rcases C01_step hcan h o hv1 hv2 f with ⟨w, a, b, _, _⟩ | ⟨_, _, _, hl⟩
    · rw [runOps_cons_ok a] at hr
      obtain ⟨t1, a1, b1⟩ := stepT_bal (re := re) a h.2.1 hb
      obtain ⟨t2, a2, b2, c2⟩ := ih b hv3 hr b1
      refine ⟨t2, by rw [runOps_cons_ok a1]; exact a2, ?_, c2⟩
      rw [Nat.add_assoc] at b2; exact b2
    · simp [runOps, hl] at hr

/-- **C56, exactly**: over any history of calls that return, and the destruction at its end, the objects constructed are those destroyed
plus one for every `erase` of an inner element and one for every `emplace` before an existing element. -/
theorem C56_exact {triv : Bool} {can re : Nat → Bool} (hcan : ∀ n, can n = true) (ops : List (Op α)) (hv : ValidHist triv [] ops)
    {f : Nat} {v : Vec α} (hr : runOps (step triv can (f + 3)) (empty : Vec α) ops = .ok v) :
    ∃ t t', runOps (stepT triv can re (f + 3)) ((empty : Vec α), ⟨0, 0⟩) ops = .ok (v, t) ∧ destructT triv (v, t) = .ok t' ∧
      t.made = t.ended + v.size + lostOver [] ops ∧ t'.made = t'.ended + lostOver [] ops := by
  obtain ⟨t, a, b, c⟩ := runT_bal (re := re) hcan ops rep_empty hv hr (t := ⟨0, 0⟩) (k := 0) rfl
  obtain ⟨v', d, e, _⟩ := clean_ok (triv := triv) c
  obtain ⟨t', g, i⟩ := cleanT_ok d b
  refine ⟨t, t', a, by simp only [destructT, g], by simpa [Bal] using b, ?_⟩
  have hz : v'.size = 0 := e.2.1
  rw [hz] at i
  simpa [Bal] using i

/-- Two pushes, an emplace before the first element and an erase of the first of three, then the destruction: 4 objects constructed, 2 destroyed. -/
example : ValidHist false [] [Op.pushBack 1, .pushBack 2, .emplace 0 3, .erase 0] ∧
    lostOver [] [Op.pushBack 1, .pushBack 2, .emplace 0 3, .erase 0] = 2 ∧
    (runOps (stepT false (fun _ => true) (fun _ => true) 9) ((empty : Vec Nat), ⟨0, 0⟩)
      [Op.pushBack 1, .pushBack 2, .emplace 0 3, .erase 0] >>= destructT false) = .ok ⟨4, 2⟩ := by
  refine ⟨by decide, by decide, by decide⟩

/-- **C56 (partial)**: a history without `erase` of an inner element and `emplace` before an existing element destroys everything it
constructs, whatever way the allocator grows the array. -/
theorem C56_balanced_partial {triv : Bool} {can re : Nat → Bool} (hcan : ∀ n, can n = true) (ops : List (Op α)) (hv : ValidHist triv [] ops)
    (hz : lostOver [] ops = 0) {f : Nat} {v : Vec α} (hr : runOps (step triv can (f + 3)) (empty : Vec α) ops = .ok v) :
    ∃ t t', runOps (stepT triv can re (f + 3)) ((empty : Vec α), ⟨0, 0⟩) ops = .ok (v, t) ∧ destructT triv (v, t) = .ok t' ∧
      t'.made = t'.ended := by
  obtain ⟨t, t', a, b, _, d⟩ := C56_exact (re := re) hcan ops hv hr
  exact ⟨t, t', a, b, by omega⟩

example : lostOver [] [Op.pushBack 1, .insert 0 2, .emplace 2 3, .erase 2, .insertRange 1 [7, 8, 9], .eraseRange 1 5] = 0 ∧
    ValidHist false [] [Op.pushBack 1, .insert 0 2, .emplace 2 3, .erase 2, .insertRange 1 [7, 8, 9], .eraseRange 1 5] := by decide

/-- **C56 violated**: after any such history, `emplace` before any existing element constructs over an object that is never destroyed:
one more object than before is lost. -/
theorem C56_emplace_violated {triv : Bool} {can re : Nat → Bool} (hcan : ∀ n, can n = true) {v : Vec α} {l : List α} (h : Rep v l)
    (hc : ¬ (v.size = 1 ∧ v.cap = 1)) {p : Nat} (hp : p < l.length) (x : α) (f : Nat) {t : Tally} {k : Nat}
    (ht : t.made = t.ended + l.length + k) :
    ∃ v' t' t'', stepT triv can re (f + 3) (v, t) (.emplace p x) = .ok (v', t') ∧ v'.toList = .ok (l.take p ++ x :: l.drop p) ∧
      destructT triv (v', t') = .ok t'' ∧ t''.made = t''.ended + k + 1 := by
  have hs := h.2.1
  obtain ⟨v', _, a, b, _, _⟩ := insert_ok (triv := triv) hcan (f := f) h x (p := p) (by omega) hc
  obtain ⟨t', c, d⟩ := stepT_bal (re := re) (o := .emplace p x) (triv := triv) (can := can) (f := f + 3) a hs (t := t) (k := k)
    (by simp only [Bal]; omega)
  obtain ⟨w, e, g, _⟩ := clean_ok (triv := triv) b
  obtain ⟨t'', i, j⟩ := cleanT_ok e d
  have hz : w.size = 0 := g.2.1
  rw [hz] at j
  simp only [Bal, lost, if_pos hp] at j
  exact ⟨v', t', t'', c, (rep_observe b).1, by simp only [destructT, i], by omega⟩

example : Rep (⟨[.live 5, .live 6, .raw, .raw], 4, 2⟩ : Vec Nat) [5, 6] ∧
    (stepT false (fun _ => true) (fun _ => true) 9 ((⟨[.live 5, .live 6, .raw, .raw], 4, 2⟩ : Vec Nat), ⟨2, 0⟩) (.emplace 1 7)
      >>= destructT false) = .ok ⟨4, 3⟩ :=
  ⟨⟨rfl, rfl, [.raw, .raw], rfl⟩, by decide⟩

/-- **C56, what growing costs.**  `reserve` calls no constructor and no destructor when there is room already, when the array can be grown by `realloc`, or when there is
no memory; only when a new array had to be created instead is every element constructed once more and destroyed once. -/
theorem C56_reserve_calls {triv : Bool} {can re : Nat → Bool} {v : Vec α} {l : List α} (h : Rep v l) {n f : Nat} {t : Tally} :
    ∃ v' t', stepT triv can re f (v, t) (.reserve n) = .ok (v', t') ∧ v'.toList = .ok l ∧
      (n ≤ v.cap → t' = t) ∧ (re n = true → t' = t) ∧ (can n = false → t' = t) ∧
      (v.cap < n → can n = true → re n = false → t'.made = t.made + l.length ∧ t'.ended = t.ended + l.length) := by
  refine ⟨v.reserve can n, (v.reserveT can re n t).2, rfl, ?_, ?_, ?_, ?_, ?_⟩
  · exact (rep_observe (reserve_rep h n)).1
  · intro hn; simp only [reserveT]; rw [if_neg (fun c => by omega)]
  · intro hn; simp only [reserveT]; rw [if_neg (fun c => by rw [hn] at c; exact absurd c.2.2 (by decide))]
  · intro hn; simp only [reserveT]; rw [if_neg (fun c => by rw [hn] at c; exact absurd c.2.1 (by decide))]
  · intro h1 h2 h3
    simp only [reserveT]; rw [if_pos ⟨h1, h2, h3⟩, h.2.1]
    exact ⟨rfl, rfl⟩

example : Rep (⟨[.live 5, .live 6], 2, 2⟩ : Vec Nat) [5, 6] ∧
    stepT false (fun _ => true) (fun _ => false) 9 ((⟨[.live 5, .live 6], 2, 2⟩ : Vec Nat), ⟨2, 0⟩) (.reserve 3) =
      .ok (⟨[.live 5, .live 6, .raw], 3, 2⟩, ⟨4, 2⟩) :=
  ⟨⟨rfl, rfl, [], rfl⟩, by decide⟩

end Flame
