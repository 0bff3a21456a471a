import Verif.Life.ElemHold
import Verif.Vector.ElemProps
import Verif.String.CopyExact

/-! # C199: strings held by an `Optional`, a `StaticArray` or an `InitializerList` -/

namespace Flame.ElemHold
open Flame ElemVec

variable {α : Type} [DecidableEq α] {z : α}

/-- What a user reads from an optional: `*o`, undefined if it is empty. -/
def text (o : Option (Str α)) : Res (List α) :=
  match o with
  | some s => s.chars
  | none => .ub

/-! ### Optional -/

/-- **C199, an empty optional.**  Giving it a string, by copy or by move, makes it hold that text; a moved argument is empty afterwards.  The
constructors do the same. -/
theorem C199_optional_first {s : Str α} {t : List α} (hs : Str.Rep z s t) (k : Nat) :
    (∃ o, set (strCls z k) none s = .ok o ∧ text o = .ok t) ∧
    (∃ o, setMove (strCls z k) none s = .ok (o, Str.empty) ∧ text o = .ok t) ∧
    (∃ o, ofCopy (strCls z k) s = .ok o ∧ text o = .ok t) ∧
    (text (ofMove (strCls z k) s).1 = .ok t ∧ (ofMove (strCls z k) s).2 = Str.empty) := by
  obtain ⟨s', a, b, _⟩ := Str.copy_ok hs
  have hc : (strCls z k).copy s = .ok s' := a
  have hb : Str.Rep z s' t := Or.inl b
  have e : ofCopy (strCls z k) s = .ok (some s') := by rw [ofCopy, hc]; rfl
  exact ⟨⟨some s', e, hb.chars⟩, ⟨some s, rfl, hs.chars⟩, ⟨some s', e, hb.chars⟩, hs.chars, rfl⟩

example := C199_optional_first ab_rep 0

/-- **C199, copies of an optional.**  Copy construction keeps the text; move construction hands it over and leaves the source filled, with an empty
string. -/
theorem C199_optional_copies {s : Str α} {t : List α} (hs : Str.Rep z s t) (k : Nat) :
    (∃ o, copyOpt (strCls z k) (some s) = .ok o ∧ text o = .ok t) ∧
    (∃ o, moveOpt (strCls z k) (some s) = (o, some Str.empty) ∧ text o = .ok t) ∧
    (copyOpt (strCls z k) (none : Option (Str α)) = .ok none ∧ moveOpt (strCls z k) (none : Option (Str α)) = (none, none)) := by
  obtain ⟨s', a, b, _⟩ := Str.copy_ok hs
  have hc : (strCls z k).copy s = .ok s' := a
  have hb : Str.Rep z s' t := Or.inl b
  exact ⟨⟨some s', by rw [copyOpt, ofCopy, hc]; rfl, hb.chars⟩, ⟨some s, rfl, hs.chars⟩, rfl, rfl⟩

example := C199_optional_copies ab_rep 0

/-- **C199, a filled optional, by move.**  Moving a string, or a filled optional, into a filled optional replaces its text and empties the
argument. -/
theorem C199_optional_move {d s : Str α} {l t : List α} (hd : Str.Rep z d l) (hs : Str.Rep z s t) (k : Nat) :
    (∃ o, setMove (strCls z k) (some d) s = .ok (o, Str.empty) ∧ text o = .ok t) ∧
    (∃ o, moveAssignOpt (strCls z k) (some d) (some s) = .ok (o, some Str.empty) ∧ text o = .ok t) ∧
    (∃ o, moveAssignOpt (strCls z k) none (some s) = .ok (o, some Str.empty) ∧ text o = .ok t) := by
  have e := (strSteals z k).massign d s ⟨l, hd⟩
  refine ⟨⟨some s, ?_, hs.chars⟩, ⟨some s, ?_, hs.chars⟩, ⟨some s, rfl, hs.chars⟩⟩
  · rw [setMove, e]; rfl
  · rw [moveAssignOpt, setMove, e]; rfl

example := C199_optional_move ab_rep (z := 0) (s := Str.empty) (t := []) (Or.inr ⟨rfl, rfl⟩) 0

/-- **C199, a filled optional, by copy (exactly).**  Copying a string into a filled optional gives it that text only if the text is empty and
the string it held has storage. -/
theorem C199_optional_copy_exact {d s : Str α} {l t : List α} (hd : Str.Rep z d l) (hs : Str.Rep z s t) (k : Nat) :
    ((∃ o, set (strCls z k) (some d) s = .ok o ∧ text o = .ok t) ↔ t = [] ∧ d.cap ≠ 0) ∧
    ((∃ o, assignOpt (strCls z k) (some d) (some s) = .ok o ∧ text o = .ok t) ↔ t = [] ∧ d.cap ≠ 0) := by
  have h := (C18_assign_exact hd hs k).1
  have key : (∃ o, set (strCls z k) (some d) s = .ok o ∧ text o = .ok t) ↔ t = [] ∧ d.cap ≠ 0 := by
    rw [← h]
    constructor
    · rintro ⟨o, a, b⟩
      rw [set] at a
      obtain ⟨d', e, a⟩ := Res.bind_eq_ok.1 a
      cases a
      exact ⟨d', e, b⟩
    · rintro ⟨d', e, b⟩
      have e' : (strCls z k).assign d s = .ok d' := e
      exact ⟨some d', by rw [set, e']; rfl, b⟩
  exact ⟨key, key⟩

example := C199_optional_copy_exact ab_rep ab_rep 0

/-- **C199, violated (by copy).**  An optional holding a string with more room than the new text needs reads as the empty text afterwards; one
holding a string without storage (default constructed, or moved from) is written to out of bounds. -/
theorem C199_optional_copy_violated {d s : Str α} {l t : List α} (hs : Str.Full z s t) (k : Nat) :
    (Str.Full z d l → t.length < d.cap → ∃ o, set (strCls z k) (some d) s = .ok o ∧ text o = .ok []) ∧
    set (strCls z k) (some Str.empty) s = .ub := by
  refine ⟨fun hd hl => ?_, ?_⟩
  · obtain ⟨d', e, _, b⟩ := C18_violated d s l t hd hs hl (k + 1)
    have e' : (strCls z k).assign d s = .ok d' := e
    exact ⟨some d', by rw [set, e']; rfl, b⟩
  · have e : (strCls z k).assign Str.empty s = .ub := C18_default_target_ub s t (Or.inl hs) k
    rw [set, e]; rfl

example := C199_optional_copy_violated (d := ab) (l := [5, 6]) (ab_rep.resolve_right (by simp [ab, Str.empty])) 0

omit [DecidableEq α] in
/-- **C199, violated (an empty source).**  Assigning an empty optional, by copy or by move, leaves the target filled with its old text: the target
is empty, as the source is, exactly if it was before. -/
theorem C199_optional_none_violated (o o' : Option (Str α)) (src : Option (Str α)) (k : Nat)
    (h : assignOpt (strCls z k) o none = .ok o' ∨ moveAssignOpt (strCls z k) o none = .ok (o', src)) :
    (o' = none ↔ o = none) ∧ text o' = text o := by
  have : o' = o := by
    rcases h with h | h
    · simpa [assignOpt] using h.symm
    · simp only [moveAssignOpt, Res.ok.injEq, Prod.mk.injEq] at h
      exact h.1.symm
  subst this
  exact ⟨Iff.rfl, rfl⟩

example := C199_optional_none_violated (z := 0) (some ab) (some ab) none 0 (Or.inl rfl)
example := C199_optional_none_violated (z := 0) (some ab) (some ab) none 0 (Or.inr rfl)

/-! ### StaticArray -/

/-- **C199, violated (copying an array).**  Copying a `StaticArray` with at least one string is undefined, whatever the strings are, and so is
making one from an initializer list. -/
theorem C199_array_copy_ub {N : Nat} {s : Str α} {t : List α} (ss : List (Str α)) (hs : Str.Rep z s t) (hl : (s :: ss).length ≤ N) (k : Nat) :
    arrayCopy (strCls z k) N (s :: ss) = .ub ∧ arrayOfList (strCls z k) N (s :: ss) = .ub := by
  have e : (strCls z k).assign (strCls z k).dflt s = .ub := C18_default_target_ub s t hs k
  obtain ⟨n, rfl⟩ : ∃ n, N = n + 1 := ⟨N - 1, by simp at hl; omega⟩
  have key : assignEach (strCls z k) (fixed (strCls z k) (n + 1)) (s :: ss) = .ub := by
    rw [fixed, List.replicate_succ, assignEach, e]; rfl
  exact ⟨by rw [arrayCopy, if_pos hl, key], key⟩

example := C199_array_copy_ub (N := 3) [Str.empty] ab_rep (by decide) 0

omit [DecidableEq α] in
theorem assignFirst_tail {c : Cls (Str α)} : ∀ (xs : List (Str α)) (d : Str α) (ds out : List (Str α)), assignFirst c (d :: ds) xs = .ok out →
    out.tail = ds := by
  intro xs
  induction xs with
  | nil => intro d ds out h; cases h; rfl
  | cons x xs ih =>
    intro d ds out h
    rw [assignFirst] at h
    obtain ⟨d', _, h⟩ := Res.bind_eq_ok.1 h
    exact ih d' ds out h

/-- **C199, violated (assigning an array).**  Copy assignment of a `StaticArray` of strings never changes a string after the first; if the first
has no storage it is undefined. -/
theorem C199_array_assign_violated (d : Str α) (ds src : List (Str α)) (k : Nat) :
    (∀ out, arrayAssign (strCls z k) (d :: ds) src = .ok out → out.tail = ds) ∧
    (∀ s t rest, src = s :: rest → Str.Rep z s t → d = Str.empty → src.length ≤ ds.length + 1 → arrayAssign (strCls z k) (d :: ds) src = .ub) := by
  refine ⟨fun out h => ?_, ?_⟩
  · rw [arrayAssign] at h
    split at h
    · exact assignFirst_tail _ _ _ _ h
    · cases h; rfl
  · rintro s t rest rfl hs rfl hl
    have e : (strCls z k).assign Str.empty s = .ub := C18_default_target_ub s t hs k
    rw [arrayAssign, if_pos (by simpa using hl), assignFirst, e]; rfl

example := C199_array_assign_violated (z := 0) Str.empty [ab] [ab, ab] 0
example : ∃ out, arrayAssign (strCls 0 0) [ab, ab] [Str.empty, Str.empty] = .ok out ∧ out.tail = [ab] := ⟨_, rfl, rfl⟩

/-! ### InitializerList -/

theorem initEach_given {k : Nat} : ∀ (as : List (Arg (Str α))) (ds : List (Str α)), (∀ d ∈ ds, ∃ l, Str.Rep z d l) → as.length ≤ ds.length →
    (∀ a ∈ as, a.given = true) →
    initEach (strCls z k) ds as = .ok (as.map (·.val) ++ ds.drop as.length, List.replicate as.length Str.empty) := by
  intro as
  induction as with
  | nil => intro ds _ _ _; cases ds <;> rfl
  | cons a as ih =>
    intro ds hd hl hg
    cases ds with
    | nil => simp at hl
    | cons d ds =>
      cases a with
      | lv x => exact absurd (hg (.lv x) (by simp)) (by simp [Arg.given])
      | rv x =>
        have e := (strSteals z k).massign d x (hd d (by simp))
        rw [initEach, e]
        simp only [Res.ok_bind]
        rw [ih ds (fun d' h => hd d' (by simp [h])) (by simpa using hl) (fun a h => hg a (by simp [h]))]
        rfl

theorem initEach_named {k : Nat} : ∀ (as : List (Arg (Str α))) (n : Nat), (∀ a ∈ as, ∃ t, Str.Rep z a.val t) → as.length ≤ n →
    (∃ a ∈ as, a.given = false) → initEach (strCls z k) (List.replicate n (strCls z k).dflt) as = .ub := by
  intro as
  induction as with
  | nil => rintro n _ _ ⟨a, h, _⟩; simp at h
  | cons a as ih =>
    intro n hr hl hn
    obtain ⟨m, rfl⟩ : ∃ m, n = m + 1 := ⟨n - 1, by simp at hl; omega⟩
    rw [List.replicate_succ]
    cases a with
    | lv x =>
      obtain ⟨t, ht⟩ := hr (.lv x) (by simp)
      have e : (strCls z k).assign (strCls z k).dflt x = .ub := C18_default_target_ub x t ht k
      rw [initEach, e]; rfl
    | rv x =>
      have e := (strSteals z k).massign (strCls z k).dflt x ⟨[], Or.inr ⟨rfl, rfl⟩⟩
      rw [initEach, e]
      simp only [Res.ok_bind]
      rw [ih m (fun a h => hr a (by simp [h])) (by simpa using hl) ?_]
      · rfl
      · obtain ⟨a, ha, hg⟩ := hn
        rcases List.mem_cons.1 ha with rfl | ha
        · simp [Arg.given] at hg
        · exact ⟨a, ha, hg⟩

/-- **C199, initializer lists (exactly).**  An `InitializerList` of strings is defined exactly if no argument is a named string; it then holds the
arguments in order, followed by empty strings, and the arguments are empty. -/
theorem C199_list_exact (SIZE : Nat) (as : List (Arg (Str α))) (hr : ∀ a ∈ as, ∃ t, Str.Rep z a.val t) (hl : as.length ≤ SIZE) (k : Nat) :
    ((∀ a ∈ as, a.given = true) →
      listOf (strCls z k) SIZE as = .ok (as.map (·.val) ++ List.replicate (SIZE - as.length) Str.empty, List.replicate as.length Str.empty)) ∧
    ((∃ a ∈ as, a.given = false) → listOf (strCls z k) SIZE as = .ub) := by
  refine ⟨fun hg => ?_, fun hn => initEach_named as SIZE hr hl hn⟩
  rw [listOf, initEach_given (z := z) as _ ?_ (by simpa [fixed] using hl) hg]
  · simp [fixed, strCls]
  · intro d hd
    have := List.eq_of_mem_replicate hd
    subst this; exact ⟨[], Or.inr ⟨rfl, rfl⟩⟩

example := C199_list_exact (z := 0) 4 [.rv ab, .rv Str.empty] (by
  intro a ha; simp at ha; rcases ha with rfl | rfl; exact ⟨_, ab_rep⟩; exact ⟨[], Or.inr ⟨rfl, rfl⟩⟩) (by decide) 0
example := C199_list_exact (z := 0) 4 [.rv ab, .lv ab] (by
  intro a ha; simp at ha; rcases ha with rfl | rfl <;> exact ⟨_, ab_rep⟩) (by decide) 0

/-! ### Elements whose assignments work -/

section
variable {E : Type}

/-- An element class whose copies are copies; `gone x` is what is left of `x` when it was moved. -/
structure Sound (c : Cls E) (gone : E → E) : Prop where
  copy : ∀ x, c.copy x = .ok x
  assign : ∀ d x, c.assign d x = .ok x
  move : ∀ x, c.move x = (x, gone x)
  massign : ∀ d x, c.massign d x = .ok (x, gone x)

/-- Numbers. -/
def natCls : Cls Nat := ⟨7, fun x => .ok x, fun x => (x, x), fun _ x => .ok x, fun _ x => .ok (x, x)⟩

theorem natCls_sound : Sound natCls id := ⟨fun _ => rfl, fun _ _ => rfl, fun _ => rfl, fun _ _ => rfl⟩

/-- **C199, optional, any element whose assignments work.**  Setting gives exactly the new value, filled or not; a filled optional replaces, an empty
one leaves the target as it was. -/
theorem C199_optional_sound {c : Cls E} {gone : E → E} (hc : Sound c gone) (o src : Option E) (x : E) :
    set c o x = .ok (some x) ∧ setMove c o x = .ok (some x, gone x) ∧
    copyOpt c src = .ok src ∧ moveOpt c src = (src, src.map gone) ∧
    assignOpt c o src = .ok (src.or o) ∧ moveAssignOpt c o src = .ok (src.or o, src.map gone) := by
  have h1 : ∀ x, set c o x = .ok (some x) := by
    intro x
    cases o with
    | none => rw [set, ofCopy, hc.copy]; rfl
    | some d => rw [set, hc.assign]; rfl
  have h2 : ∀ x, setMove c o x = .ok (some x, gone x) := by
    intro x
    cases o with
    | none => rw [setMove, ofMove, hc.move]
    | some d => rw [setMove, hc.massign]; rfl
  refine ⟨h1 x, h2 x, ?_, ?_, ?_, ?_⟩ <;> cases src with
  | none => first | rfl | (cases o <;> rfl)
  | some y => first
    | (rw [copyOpt, ofCopy, hc.copy]; rfl)
    | (rw [moveOpt, hc.move]; rfl)
    | (rw [assignOpt, h1]; rfl)
    | (rw [moveAssignOpt, h2]; rfl)

example := C199_optional_sound natCls_sound (some 3) (some 4) 5

theorem assignEach_sound {c : Cls E} {gone : E → E} (hc : Sound c gone) : ∀ (ds xs : List E), xs.length ≤ ds.length →
    assignEach c ds xs = .ok (xs ++ ds.drop xs.length) := by
  intro ds
  induction ds with
  | nil =>
    intro xs hl
    have := List.eq_nil_of_length_eq_zero (Nat.le_zero.1 hl)
    subst this; rfl
  | cons d ds ih =>
    intro xs hl
    cases xs with
    | nil => rfl
    | cons x xs =>
      rw [assignEach, hc.assign]
      simp only [Res.ok_bind]
      rw [ih xs (by simpa using hl)]; rfl

theorem assignFirst_sound {c : Cls E} {gone : E → E} (hc : Sound c gone) : ∀ (xs : List E) (d : E) (ds : List E),
    assignFirst c (d :: ds) xs = .ok (xs.getLast?.getD d :: ds) := by
  intro xs
  induction xs with
  | nil => intro d ds; rfl
  | cons x xs ih =>
    intro d ds
    rw [assignFirst, hc.assign]
    simp only [Res.ok_bind]
    rw [ih x ds]
    cases xs with
    | nil => rfl
    | cons y ys => simp [List.getLast?_cons_cons, List.getLast?_eq_some_getLast (l := y :: ys) (by simp)]

/-- **C199, arrays, any element whose assignments work.**  Construction from an array that fits holds its objects, then default ones; from one that
does not fit, default ones only.  Copy assignment puts the source's last object into the first place and leaves the others. -/
theorem C199_array_sound {c : Cls E} {gone : E → E} (hc : Sound c gone) (N : Nat) (d : E) (ds src : List E) :
    arrayCopy c N src = (if src.length ≤ N then .ok (src ++ List.replicate (N - src.length) c.dflt) else .ok (List.replicate N c.dflt)) ∧
    arrayAssign c (d :: ds) src = (if src.length ≤ ds.length + 1 then .ok (src.getLast?.getD d :: ds) else .ok (d :: ds)) ∧
    (src.length ≤ N → arrayOfList c N src = .ok (src ++ List.replicate (N - src.length) c.dflt)) := by
  have h1 : src.length ≤ N → assignEach c (fixed c N) src = .ok (src ++ List.replicate (N - src.length) c.dflt) := by
    intro h
    rw [assignEach_sound hc _ _ (by simpa [fixed] using h)]; simp [fixed]
  refine ⟨?_, ?_, h1⟩
  · rw [arrayCopy]
    split
    · exact h1 (by assumption)
    · rfl
  · rw [arrayAssign, assignFirst_sound hc]; rfl

example := C199_array_sound natCls_sound 4 1 [2, 3] [8, 9]

/-- **C199, arrays (violated).**  So copy assignment of an array makes the target's objects equal to the source's only if there is at most one
source object, or the target's further ones were already the source's and its last equals its first. -/
theorem C199_array_assign_exact {c : Cls E} {gone : E → E} (hc : Sound c gone) (d : E) (ds : List E) (x : E) (xs : List E)
    (hl : xs.length = ds.length) :
    arrayAssign c (d :: ds) (x :: xs) = .ok (x :: xs) ↔ ds = xs ∧ (xs = [] ∨ xs.getLast? = some x) := by
  rw [(C199_array_sound hc 0 d ds (x :: xs)).2.1, if_pos (by simp; omega)]
  simp only [Res.ok.injEq, List.cons.injEq]
  constructor
  · rintro ⟨a, rfl⟩
    refine ⟨rfl, ?_⟩
    cases ds with
    | nil => exact Or.inl rfl
    | cons y ys =>
      rw [List.getLast?_cons_cons, List.getLast?_eq_some_getLast (l := y :: ys) (by simp)] at a
      rw [List.getLast?_eq_some_getLast (l := y :: ys) (by simp)]
      exact Or.inr (congrArg some a)
  · rintro ⟨rfl, h⟩
    refine ⟨?_, rfl⟩
    rcases h with rfl | h
    · rfl
    · cases ds with
      | nil => simp at h
      | cons y ys => rw [List.getLast?_cons_cons, h]; rfl

example := C199_array_assign_exact natCls_sound 1 [2, 3] 8 [2, 3] rfl

theorem initEach_sound {c : Cls E} {gone : E → E} (hc : Sound c gone) : ∀ (as : List (Arg E)) (ds : List E), as.length ≤ ds.length →
    initEach c ds as = .ok (as.map (·.val) ++ ds.drop as.length, as.map fun a => if a.given then gone a.val else a.val) := by
  intro as
  induction as with
  | nil => intro ds _; cases ds <;> rfl
  | cons a as ih =>
    intro ds hl
    cases ds with
    | nil => simp at hl
    | cons d ds =>
      have := ih ds (by simpa using hl)
      cases a with
      | lv x =>
        rw [initEach, hc.assign]
        simp only [Res.ok_bind]
        rw [this]; rfl
      | rv x =>
        rw [initEach, hc.massign]
        simp only [Res.ok_bind]
        rw [this]; rfl

/-- **C199, initializer lists, any element whose assignments work.**  The list holds the arguments in order, then default objects; exactly the
arguments given away are moved from. -/
theorem C199_list_sound {c : Cls E} {gone : E → E} (hc : Sound c gone) (SIZE : Nat) (as : List (Arg E)) (hl : as.length ≤ SIZE) :
    listOf c SIZE as = .ok (as.map (·.val) ++ List.replicate (SIZE - as.length) c.dflt,
      as.map fun a => if a.given then gone a.val else a.val) := by
  rw [listOf, initEach_sound hc _ _ (by simpa [fixed] using hl)]
  simp [fixed]

example := C199_list_sound natCls_sound 4 [.rv 3, .lv 4] (by decide)

end

end Flame.ElemHold
