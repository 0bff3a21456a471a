import Verif.List.ElemProps
import Verif.List.ExactProps
import Verif.List.CopyExact

/-! # C200, exactly: which histories a `List` of Strings survives -/

namespace Flame.ListSpec
variable {α β : Type}

theorem good_map (f : α → β) (l : List α) (op : Op α) : good (l.map f) (op.map f) ↔ good l op := by
  cases op <;> simp [good, Op.map]

theorem valid_map (f : α → β) (l : List α) (op : Op α) : valid (l.map f) (op.map f) ↔ valid l op := by
  cases op <;> simp [valid, Op.map]

end Flame.ListSpec

namespace Flame.ElemList
open Flame.LL Flame.ListSpec
open Flame.ElemVec (Cls strCls copyAll copyAll_ok readTexts readTexts_ok ab ab_rep)

variable {α : Type} [DecidableEq α] {z : α}

/-- List object `o` can be used as a list of the texts `ls`: any string can be appended, the texts can then be read in both directions, and the
list can be cleaned. -/
def Usable (z : α) (k : Nat) (m : Mem (Str α)) (o : Nat) (ls : List (List α)) : Prop :=
  ∀ s t, Str.Rep z s t → ∀ f, m.fresh + 1 < f → ∃ m', step (strCls z k) o m (.pushBack s) = .ok m' ∧ texts f m' o = .ok (ls ++ [t]) ∧
    textsReverse f m' o = .ok (t :: ls.reverse) ∧ ∃ m'', LL.clean f m' o = .ok m''

theorem Holds.usable {m : Mem (Str α)} {o : Nat} {es : Entries (Str α)} {ls : List (List α)} (h : Holds z m o es ls) (k : Nat) :
    Usable z k m o ls := by
  intro s t hs f hf
  obtain ⟨m', es', a, b, _⟩ := C200_step_partial h k (.pushBack (s, t)) (by simpa [Op.args] using hs) trivial
  have b' : Holds z m' o es' (ls ++ [t]) := b
  have hfr : m'.fresh = m.fresh + 1 := by
    simp only [step, Op.map, taken] at a
    obtain ⟨op, e1, e2⟩ := Res.bind_eq_ok.1 a
    obtain ⟨y, _, e4⟩ := Res.bind_eq_ok.1 e1
    cases e4
    exact pushBack_fresh e2
  obtain ⟨_, c, d⟩ := C200_read b' (by simp) (f := f) (by omega)
  obtain ⟨m'', e, _⟩ := clean_ok b'.1 (f := f) (by have := b'.1.len; omega)
  exact ⟨m', a, c, by simpa using d, m'', e⟩

/-- A good call keeps the list in order, and the null address empty. -/
theorem step_good {m : Mem (Str α)} {o : Nat} {es : Entries (Str α)} {ls : List (List α)} (h : Holds z m o es ls) (hnull : m.cell .null = none)
    (k : Nat) (op : Op (Str α × List α)) (hr : ∀ p ∈ op.args, Str.Rep z p.1 p.2) (hg : good ls (op.map (·.2))) :
    ∃ m' es', step (strCls z k) o m (op.map (·.1)) = .ok m' ∧ Holds z m' o es' (apply ls (op.map (·.2))) ∧ m'.cell .null = none := by
  obtain ⟨hi, ps, h1, rfl, h3⟩ := h
  obtain ⟨op', a, b, c⟩ := taken_ok k op hr
  rw [← b, good_map] at hg
  have : Inhabited (Str α) := ⟨Str.empty⟩
  obtain ⟨m', es', d, e, g, hn⟩ := C14_step_good hi hnull h1 (op'.map (·.1)) ((good_map _ _ _).2 hg)
  refine ⟨m', es', by rw [step, a, Res.ok_bind, d], ⟨g, apply ps op', by rw [e, apply_map], ?_, ?_⟩, hn⟩
  · rw [← b, apply_map]
  · intro p hp
    rcases mem_apply hp with hp | hp
    · exact h3 p hp
    · exact c p hp

/-- A call after which anything can be appended and read is a good one. -/
theorem good_of_usable {m m' : Mem (Str α)} {o : Nat} {es : Entries (Str α)} {ls ls' : List (List α)} (h : Holds z m o es ls)
    (hnull : m.cell .null = none) (k : Nat) (op : Op (Str α × List α)) (hr : ∀ p ∈ op.args, Str.Rep z p.1 p.2) (hv : valid ls (op.map (·.2)))
    (hs : step (strCls z k) o m (op.map (·.1)) = .ok m') (hu : Usable z k m' o ls') : good ls (op.map (·.2)) := by
  obtain ⟨hi, ps, h1, rfl, h3⟩ := h
  obtain ⟨op', a, b, _⟩ := taken_ok k op hr
  rw [step, a, Res.ok_bind] at hs
  obtain ⟨m2, c, d, _⟩ := hu Str.empty [] (Or.inr ⟨rfl, rfl⟩) (m'.fresh + 2) (by omega)
  simp only [step, taken] at c
  obtain ⟨o2, c1, c2⟩ := Res.bind_eq_ok.1 c
  obtain ⟨y, _, c4⟩ := Res.bind_eq_ok.1 c1
  cases c4
  obtain ⟨ss, d1, _⟩ := Res.bind_eq_ok.1 d
  rw [← b, valid_map] at hv
  rw [← b, good_map]
  have := LL.good_of_usable hi hnull h1 (op'.map (·.1)) ((valid_map _ _ _).2 hv) hs c2 (by omega) d1
  exact (good_map _ _ _).1 this

/-- **C200 (exact), one call.**  A call the caller may make leaves a usable list with the right texts exactly if it is a good one: strings add no
failure to those a list has for every element type. -/
theorem C200_step_exact {m : Mem (Str α)} {o : Nat} {es : Entries (Str α)} {ls : List (List α)} (h : Holds z m o es ls)
    (hnull : m.cell .null = none) (k : Nat) (op : Op (Str α × List α)) (hr : ∀ p ∈ op.args, Str.Rep z p.1 p.2) (hv : valid ls (op.map (·.2))) :
    (∃ m', step (strCls z k) o m (op.map (·.1)) = .ok m' ∧ Usable z k m' o (apply ls (op.map (·.2)))) ↔ good ls (op.map (·.2)) := by
  constructor
  · rintro ⟨m', hs, hu⟩
    exact good_of_usable h hnull k op hr hv hs hu
  · intro hg
    obtain ⟨m', es', a, b, _⟩ := step_good h hnull k op hr hg
    exact ⟨m', a, b.usable k⟩

/-- The null address of a new memory holds nothing. -/
theorem new_null (o : Nat) : (construct (emptyMem : Mem (Str α)) o).cell .null = none := by
  simp [construct, emptyMem, store, setHead, setTail]

example := C200_step_exact (new_holds (z := (0 : Nat)) 0) (new_null 0) 0 (.insertRange 0 [(ab, [5, 6])])
  (by simpa [Op.args] using ab_rep) (by simp [valid, Op.map])

theorem history_aux (o k : Nat) : ∀ (ops : List (Op (Str α × List α))) {m : Mem (Str α)} {es : Entries (Str α)} {ls : List (List α)},
    Holds z m o es ls → m.cell .null = none → (∀ op ∈ ops, ∀ p ∈ op.args, Str.Rep z p.1 p.2) → ValidHist ls (ops.map (·.map (·.2))) →
    ((∀ n ≤ ops.length, ∃ m', runOps (step (strCls z k) o) m ((ops.take n).map (·.map (·.1))) = .ok m' ∧
      Usable z k m' o (ListSpec.run ls ((ops.take n).map (·.map (·.2))))) ↔ GoodHist ls (ops.map (·.map (·.2)))) := by
  intro ops
  induction ops with
  | nil =>
    intro m es ls h _ _ _
    refine ⟨fun _ => trivial, fun _ n _ => ⟨m, by simp, ?_⟩⟩
    simpa [ListSpec.run] using h.usable k
  | cons op ops ih =>
    intro m es ls h hnull hr hv
    have hr0 := hr op (by simp)
    have hr1 : ∀ op' ∈ ops, ∀ p ∈ op'.args, Str.Rep z p.1 p.2 := fun op' h' => hr op' (by simp [h'])
    constructor
    · intro hall
      have hg : good ls (op.map (·.2)) := by
        obtain ⟨m1, a, b⟩ := hall 1 (by simp)
        refine good_of_usable h hnull k op hr0 hv.1 (m' := m1) ?_ b
        simp only [List.take_succ_cons, List.take_zero, List.map_cons, List.map_nil, runOps] at a
        split at a
        · rename_i s' e; rw [e]; exact a
        · cases a
        · cases a
      obtain ⟨m1, es1, a, b, d⟩ := step_good h hnull k op hr0 hg
      refine ⟨hg, (ih b d hr1 hv.2).mp fun n hn => ?_⟩
      obtain ⟨m2, e, f⟩ := hall (n + 1) (by simpa using hn)
      rw [List.take_succ_cons, List.map_cons, runOps_cons_ok a] at e
      exact ⟨m2, e, f⟩
    · rintro ⟨hg, hgs⟩ n hn
      cases n with
      | zero => exact ⟨m, by simp, by simpa [ListSpec.run] using h.usable k⟩
      | succ n =>
        obtain ⟨m1, es1, a, b, d⟩ := step_good h hnull k op hr0 hg
        obtain ⟨m2, e, f⟩ := (ih b d hr1 hv.2).mpr hgs n (by simpa using hn)
        exact ⟨m2, by rw [List.take_succ_cons, List.map_cons, runOps_cons_ok a, e], f⟩

/-- **C200 (exact), histories.**  For every history the caller may run on a new list of strings: the list is usable after every call, with the texts the
calls describe, exactly if every call is a good one for the contents at that moment. -/
theorem C200_history_exact (o k : Nat) (ops : List (Op (Str α × List α))) (hr : ∀ op ∈ ops, ∀ p ∈ op.args, Str.Rep z p.1 p.2)
    (hv : ValidHist [] (ops.map (·.map (·.2)))) :
    (∀ n ≤ ops.length, ∃ m', runOps (step (strCls z k) o) (construct emptyMem o) ((ops.take n).map (·.map (·.1))) = .ok m' ∧
      Usable z k m' o (ListSpec.run [] ((ops.take n).map (·.map (·.2))))) ↔ GoodHist [] (ops.map (·.map (·.2))) :=
  history_aux o k ops (new_holds o) (new_null o) hr hv

example := (C200_history_exact (z := 0) 0 0 [.pushBack (ab, [5, 6]), .pushFront (Str.empty, []), .insert 1 (ab, [5, 6]), .erase 0, .popBack, .clean]
  (by
    intro op ho p hp
    simp at ho
    rcases ho with rfl | rfl | rfl | rfl | rfl | rfl <;> simp [Op.args] at hp <;> subst hp
    · exact ab_rep
    · exact Or.inr ⟨rfl, rfl⟩
    · exact ab_rep) (by simp [ValidHist, valid, Op.map, apply])).2 (by simp [GoodHist, good, Op.map, apply])
example := mt (C200_history_exact (z := 0) 0 0 [.pushBack (ab, [5, 6]), .popBack]
  (by
    intro op ho p hp
    simp at ho
    rcases ho with rfl | rfl <;> simp [Op.args] at hp
    subst hp
    exact ab_rep) (by simp [ValidHist, valid, Op.map, apply])).1 (by simp [GoodHist, good, Op.map, apply])

/-- **C200 (exact), copies.**  A list of strings can be copied exactly if it is not empty; then both hold the texts. -/
theorem C200_copy_exact {m : Mem (Str α)} {s d : Nat} {es : Entries (Str α)} {ls : List (List α)} (h : Holds z m s es ls) (hsd : s ≠ d)
    (hnull : m.cell .null = none) {f : Nat} (hf : m.fresh < f) (k : Nat) :
    ((∃ m', copyCtor (strCls z k) f m d s = .ok m' ∧ ∀ g, m'.fresh < g → texts g m' d = .ok ls ∧ texts g m' s = .ok ls) ↔ ls ≠ []) ∧
      (ls = [] → copyCtor (strCls z k) f m d s = .ub) := by
  have hub : ls = [] → copyCtor (strCls z k) f m d s = .ub := by
    rintro rfl
    obtain ⟨hi, ps, h1, h2, _⟩ := h
    have hp : ps = [] := by simpa using h2
    subst hp
    have he : es = [] := by simpa using h1
    subst he
    obtain ⟨f, rfl⟩ : ∃ g, f = g + 1 := ⟨f - 1, by omega⟩
    rw [copyCtor, (C14_empty_violated hi hnull f).1]; rfl
  refine ⟨⟨?_, fun hne => ?_⟩, hub⟩
  · rintro ⟨m', e, _⟩ he
    rw [hub he] at e
    cases e
  · obtain ⟨m', ds, a, b, c, _⟩ := C200_copy_partial h hsd hne hf k
    exact ⟨m', a, fun g hg => ⟨(C200_read b hne hg).2.1, (C200_read c hne hg).2.1⟩⟩

/-- **C200 (exact), moving the list.**  Moving a list of strings into a new one, or onto another, hands over the texts and leaves the source an empty list,
exactly if the source is not empty. -/
theorem C200_move_exact {m : Mem (Str α)} {s d : Nat} {es ds : Entries (Str α)} {ls ks : List (List α)} (h : Holds z m s es ls)
    (hd : Holds z m d ds ks) (hsd : s ≠ d) (dj : Disj es ds) (hnull : m.cell .null = none) {f : Nat} (hf : m.fresh < f) :
    ((∃ m', moveCtor m d s = .ok m' ∧ Holds z m' s [] [] ∧ ∀ g, m'.fresh < g → texts g m' d = .ok ls) ↔ ls ≠ []) ∧
    ((∃ m', moveAssign f m d s = .ok m' ∧ Holds z m' s [] [] ∧ ∀ g, m'.fresh < g → texts g m' d = .ok ls) ↔ ls ≠ []) := by
  obtain ⟨hi, ps, h1, rfl, h3⟩ := h
  obtain ⟨_, e2, e3, _⟩ := C15_exact hi hd.1 h1 hsd dj hnull hf []
  have hps : ps.map (·.1) ≠ [] ↔ ps.map (·.2) ≠ [] := by simp
  have rd : ∀ (m' : Mem (Str α)) (g : Nat), toList g m' d = .ok (ps.map (·.1)) → texts g m' d = .ok (ps.map (·.2)) := by
    intro m' g hg
    rw [texts, hg, Res.ok_bind, readTexts_ok ps h3]
  constructor
  · constructor
    · rintro ⟨m', a, b, _⟩ he
      have hp : ps = [] := by simpa using he
      subst hp
      have : es = [] := by simpa using h1
      subst this
      rw [(C15_empty_violated hi hsd hnull 0).2] at a
      cases a
    · intro hne
      obtain ⟨m', a, b, c⟩ := e2.2 (hps.2 hne)
      exact ⟨m', a, ⟨b, [], rfl, rfl, by simp⟩, fun g hg => rd m' g (c g hg)⟩
  · constructor
    · rintro ⟨m', a, b, _⟩ he
      have hp : ps = [] := by simpa using he
      subst hp
      have : es = [] := by simpa using h1
      subst this
      rw [(C15_moveAssign_violated hd.1 hnull hf).2 s hsd hi] at a
      cases a
    · intro hne
      obtain ⟨m', a, b, c⟩ := e3.2 (hps.2 hne)
      exact ⟨m', a, ⟨b, [], rfl, rfl, by simp⟩, fun g hg => rd m' g (c g hg)⟩

/-- Two lists in one memory: object 0 holds a string, object 1 is new. -/
theorem pair_held : ∃ (m : Mem (Str Nat)) (es : Entries (Str Nat)), Holds 0 m 0 es [[5, 6]] ∧ Holds 0 m 1 [] [] ∧ Disj es [] ∧ m.cell .null = none := by
  obtain ⟨m, es, _, b, c⟩ := step_good (new_holds (z := (0 : Nat)) 0) (new_null 0) 0 (.pushBack (ab, [5, 6]))
    (by simpa [Op.args] using ab_rep) trivial
  obtain ⟨hi, ps, h⟩ := b
  exact ⟨construct m 1, es, ⟨construct_other (d := 1) hi (by decide), ps, h⟩, ⟨construct_ok m 1, [], rfl, rfl, by simp⟩, by intro n _ h; simp at h, by
    simpa [construct, setTail, setHead, store] using c⟩

example : ∃ (m : Mem (Str Nat)), ∃ m', moveCtor m 1 0 = .ok m' ∧ Holds 0 m' 0 [] [] ∧ ∀ g, m'.fresh < g → texts g m' 1 = .ok [[5, 6]] :=
  let ⟨m, _, a, b, c, d⟩ := pair_held
  ⟨m, (C200_move_exact a b (by decide) c d (Nat.lt_succ_self _)).1.2 (by simp)⟩
example : ∃ (m : Mem (Str Nat)), ∃ m', copyCtor (strCls 0 0) (m.fresh + 1) m 1 0 = .ok m' ∧
    ∀ g, m'.fresh < g → texts g m' 1 = .ok [[5, 6]] ∧ texts g m' 0 = .ok [[5, 6]] :=
  let ⟨m, _, a, _, _, d⟩ := pair_held
  ⟨m, (C200_copy_exact a (by decide) d (Nat.lt_succ_self _) 0).1.2 (by simp)⟩

end Flame.ElemList
