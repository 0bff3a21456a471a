import Verif.Crypto.Several

/-!
# C183: several `Pkcs11Library` objects work on the modules they name and do not disturb each other
-/

namespace Flame.Pkcs11.Several
open Own

variable {w : World}

/-- Object `i` says it is initialised, with the functions of module `m`. -/
def Uses (s : St) (i m : Nat) : Prop := ∃ x, s.objs i = some x ∧ x.status = OK ∧ x.functions = some m

structure Inv (w : World) (s : St) : Prop where
  fn : ∀ i x, s.objs i = some x → x.status = OK → x.functions ≠ none
  mod : ∀ i x m, s.objs i = some x → x.functions = some m → find w x.handle = some m
  who : ∀ i m, i ∈ s.who m ↔ ∃ x, s.objs i = some x ∧ x.handle = some m

theorem notInit_ne_ok : NOT_INITIALIZED ≠ OK := by decide

theorem find_cases {h : Option Nat} {m : Nat} (e : find w h = some m) : h = some m ∨ (h = none ∧ w.program = some m) := by
  cases h with
  | none => exact .inr ⟨rfl, e⟩
  | some k =>
    simp only [find] at e
    split at e
    · exact .inl e
    · exact absurd e (by simp)

theorem readFunctions_spec {a : Answers} {x : Obj} :
    (readFunctions w a x).2.handle = x.handle ∧ (readFunctions w a x).2.status = x.status ∧
    ((readFunctions w a x).2.functions = x.functions ∨
      ((readFunctions w a x).2.functions = find w x.handle ∧ (readFunctions w a x).2.functions ≠ none)) := by
  unfold readFunctions
  split
  · exact ⟨rfl, rfl, .inl rfl⟩
  · rename_i m hm
    split
    · exact ⟨rfl, rfl, .inl rfl⟩
    · exact ⟨rfl, rfl, .inr ⟨hm.symm, by simp⟩⟩

theorem initAll_spec {a : Answers} {x y : Obj} {init init' : Nat → Bool} {rv : Rv} (e : initAll w a x init = .ok (rv, y, init')) :
    y.handle = x.handle ∧ (y.functions = x.functions ∨ (y.functions = find w x.handle ∧ y.functions ≠ none)) ∧
    ((y.status = x.status ∧ init' = init) ∨
      ((y.status = x.status ∨ (y.status = OK ∧ rv = OK)) ∧ ∃ m, y.functions = some m ∧ init m = false ∧ init' = upd init m true)) := by
  obtain ⟨h1, h2, h3⟩ := readFunctions_spec (w := w) (a := a) (x := x)
  unfold initAll at e
  simp only at e
  generalize readFunctions w a x = r at *
  split at e
  · injection e with e
    obtain ⟨_, rfl, rfl⟩ := Prod.mk.inj e |>.imp_right Prod.mk.inj
    exact ⟨h1, h3, .inl ⟨h2, rfl⟩⟩
  · split at e
    · injection e with e
      obtain ⟨_, rfl, rfl⟩ := Prod.mk.inj e |>.imp_right Prod.mk.inj
      exact ⟨h1, h3, .inl ⟨h2, rfl⟩⟩
    · split at e
      case h_2 => exact absurd e (by simp)
      case h_1 m hm =>
        injection e with e
        unfold initializeRest cInitialize at e
        simp only at e
        cases hi : init m with
        | true =>
          simp only [hi, if_true] at e
          rw [if_pos (by decide)] at e
          obtain ⟨_, rfl, rfl⟩ := Prod.mk.inj e |>.imp_right Prod.mk.inj
          exact ⟨h1, h3, .inl ⟨h2, rfl⟩⟩
        | false =>
          simp only [hi, Bool.false_eq_true, if_false] at e
          by_cases hr : a.initRv = OK
          · simp only [hr, if_true, ne_eq, not_true, if_false] at e
            split at e
            · obtain ⟨_, rfl, rfl⟩ := Prod.mk.inj e |>.imp_right Prod.mk.inj
              exact ⟨h1, h3, .inr ⟨.inl h2, m, hm, hi, rfl⟩⟩
            · obtain ⟨rfl, rfl, rfl⟩ := Prod.mk.inj e |>.imp_right Prod.mk.inj
              exact ⟨h1, h3, .inr ⟨.inr ⟨rfl, rfl⟩, m, hm, hi, rfl⟩⟩
          · simp only [hr, if_false] at e
            rw [if_pos hr] at e
            obtain ⟨_, rfl, rfl⟩ := Prod.mk.inj e |>.imp_right Prod.mk.inj
            exact ⟨h1, h3, .inl ⟨h2, rfl⟩⟩

theorem finalize_spec {x : Obj} {init : Nat → Bool} {rv : Rv} {r : Rv × (Nat → Bool)} (e : finalize rv x init = .ok r) :
    r.2 = init ∨ ∃ m, x.status = OK ∧ x.functions = some m ∧ init m = true ∧ rv = OK ∧ r.2 = upd init m false := by
  unfold finalize at e
  split at e
  · rename_i hs
    split at e
    · rename_i m hm
      injection e with e
      subst e
      unfold cFinalize
      split
      · rename_i hi
        split
        · rename_i hr
          exact .inr ⟨m, hs, hm, hi, hr, rfl⟩
        · exact .inl rfl
      · exact .inl rfl
    · exact absurd e (by simp)
  · injection e with e
    subst e
    exact .inl rfl

theorem mapped_iff {l : List Nat} {m : Nat} : mapped w l m = true ↔ l ≠ [] ∨ w.program = some m := by
  unfold mapped
  cases l <;> simp

theorem inv_start : Inv w start := by
  refine ⟨fun i x h => ?_, fun i x m h => ?_, fun i m => ?_⟩
  · simp [start] at h
  · simp [start] at h
  · simp [start]

/-- An object takes the place of another one with the same handle. -/
theorem inv_replace {s : St} (h : Inv w s) {i : Nat} {x y : Obj} (hx : s.objs i = some x) (hh : y.handle = x.handle)
    (hf : y.status = OK → y.functions ≠ none) (hm : ∀ m, y.functions = some m → find w y.handle = some m) (init : Nat → Bool) :
    Inv w { s with objs := upd s.objs i (some y), init := init } := by
  refine ⟨fun j z hz => ?_, fun j z m hz => ?_, fun j m => ?_⟩
  · simp only at hz
    by_cases e : j = i
    · subst e
      rw [upd_self] at hz
      injection hz with hz
      subst hz
      exact hf
    · rw [upd_ne _ _ e] at hz
      exact h.fn j z hz
  · simp only at hz
    by_cases e : j = i
    · subst e
      rw [upd_self] at hz
      injection hz with hz
      subst hz
      exact hm m
    · rw [upd_ne _ _ e] at hz
      exact h.mod j z m hz
  · simp only
    rw [h.who]
    by_cases e : j = i
    · subst e
      rw [upd_self, hx]
      simp [hh]
    · rw [upd_ne _ _ e]

/-- An object goes away. -/
theorem inv_remove {s : St} (h : Inv w s) {i : Nat} {x : Obj} (hx : s.objs i = some x) {who : Nat → List Nat} {init : Nat → Bool}
    (hw : ∀ j m, j ∈ who m ↔ j ∈ s.who m ∧ j ≠ i) : Inv w ⟨upd s.objs i none, who, init⟩ := by
  refine ⟨fun j z hz => ?_, fun j z m hz => ?_, fun j m => ?_⟩
  · simp only at hz
    by_cases e : j = i
    · subst e
      simp at hz
    · rw [upd_ne _ _ e] at hz
      exact h.fn j z hz
  · simp only at hz
    by_cases e : j = i
    · subst e
      simp at hz
    · rw [upd_ne _ _ e] at hz
      exact h.mod j z m hz
  · simp only
    rw [hw, h.who]
    by_cases e : j = i
    · subst e
      simp
    · rw [upd_ne _ _ e]
      simp [e]

theorem destroy_spec {s s' : St} (h : Inv w s) {i : Nat} {x : Obj} (hx : s.objs i = some x) {rv : Rv} (e : destroy w s i x rv = .ok s') :
    Inv w s' ∧ s'.objs = upd s.objs i none ∧ (∀ m j, j ∈ s'.who m ↔ j ∈ s.who m ∧ j ≠ i) ∧
    ∃ r, finalize rv x s.init = .ok r ∧
      ∀ m, s'.init m = if x.handle = some m ∧ mapped w (s'.who m) m = false then false else r.2 m := by
  unfold destroy at e
  cases hf : finalize rv x s.init with
  | ub => rw [hf] at e; exact absurd e (by simp)
  | loop => rw [hf] at e; exact absurd e (by simp)
  | ok r =>
    rw [hf] at e
    simp only at e
    cases hh : x.handle with
    | none =>
      rw [hh] at e
      injection e with e
      subst e
      have hw : ∀ (j m : Nat), j ∈ s.who m ↔ j ∈ s.who m ∧ j ≠ i := fun j m => by
        refine ⟨fun hj => ⟨hj, fun c => ?_⟩, fun hj => hj.1⟩
        subst c
        obtain ⟨y, hy, hm⟩ := (h.who j m).1 hj
        rw [hx] at hy
        injection hy with hy
        subst hy
        rw [hh] at hm
        exact absurd hm (by simp)
      exact ⟨inv_remove h hx hw, rfl, fun m j => hw j m, r, rfl, fun m => by simp⟩
    | some k =>
      rw [hh] at e
      injection e with e
      subst e
      have hw : ∀ (j m : Nat), j ∈ upd s.who k ((s.who k).filter (· ≠ i)) m ↔ j ∈ s.who m ∧ j ≠ i := fun j m => by
        by_cases hk : m = k
        · subst hk
          rw [upd_self]
          simp
        · rw [upd_ne _ _ hk]
          refine ⟨fun hj => ⟨hj, fun c => ?_⟩, fun hj => hj.1⟩
          subst c
          obtain ⟨y, hy, hm⟩ := (h.who j m).1 hj
          rw [hx] at hy
          injection hy with hy
          subst hy
          rw [hh] at hm
          injection hm with hm
          exact hk hm.symm
      refine ⟨inv_remove h hx hw, rfl, fun m j => hw j m, r, rfl, fun m => ?_⟩
      simp only [close]
      by_cases hk : m = k
      · subst hk
        simp only [upd_self]
        cases hmp : mapped w ((s.who m).filter (· ≠ i)) m <;> simp
      · rw [if_neg (show ¬ (some k = some m ∧ mapped w (upd s.who k ((s.who k).filter (· ≠ i)) m) m = false) from
          fun c => hk (by injection c.1 with c; exact c.symm))]
        split
        · rfl
        · rw [upd_ne _ _ hk]

theorem inv_step {s s' : St} (h : Inv w s) {o : Op} (e : step w s o = .ok s') : Inv w s' := by
  cases o with
  | create i found =>
    cases found with
    | none =>
      simp only [step] at e
      split at e
      case h_2 => exact absurd e (by simp)
      case h_1 hn =>
        injection e with e
        subst e
        refine ⟨fun j z hz => ?_, fun j z m hz => ?_, fun j m => ?_⟩
        · simp only at hz
          by_cases ej : j = i
          · subst ej
            rw [upd_self] at hz
            injection hz with hz
            subst hz
            intro c
            exact absurd c notInit_ne_ok
          · rw [upd_ne _ _ ej] at hz
            exact h.fn j z hz
        · simp only at hz
          by_cases ej : j = i
          · subst ej
            rw [upd_self] at hz
            injection hz with hz
            subst hz
            intro c
            exact absurd c (by simp)
          · rw [upd_ne _ _ ej] at hz
            exact h.mod j z m hz
        · simp only
          rw [h.who]
          by_cases ej : j = i
          · subst ej
            rw [upd_self, hn]
            simp
          · rw [upd_ne _ _ ej]
    | some k =>
      simp only [step] at e
      split at e
      case h_2 => exact absurd e (by simp)
      case h_1 hn =>
        injection e with e
        subst e
        refine ⟨fun j z hz => ?_, fun j z m hz => ?_, fun j m => ?_⟩
        · simp only at hz
          by_cases ej : j = i
          · subst ej
            rw [upd_self] at hz
            injection hz with hz
            subst hz
            intro c
            exact absurd c notInit_ne_ok
          · rw [upd_ne _ _ ej] at hz
            exact h.fn j z hz
        · simp only at hz
          by_cases ej : j = i
          · subst ej
            rw [upd_self] at hz
            injection hz with hz
            subst hz
            intro c
            exact absurd c (by simp)
          · rw [upd_ne _ _ ej] at hz
            exact h.mod j z m hz
        · simp only
          by_cases ek : m = k
          · subst ek
            rw [upd_self, List.mem_cons, h.who]
            by_cases ej : j = i
            · subst ej
              simp
            · rw [upd_ne _ _ ej]
              simp [ej]
          · rw [upd_ne _ _ ek, h.who]
            by_cases ej : j = i
            · subst ej
              rw [upd_self, hn]
              constructor
              · rintro ⟨x, c, _⟩
                exact absurd c (by simp)
              · rintro ⟨x, c, hc⟩
                injection c with c
                subst c
                injection hc with hc
                exact absurd hc.symm ek
            · rw [upd_ne _ _ ej]
  | init i a =>
    simp only [step] at e
    split at e
    case h_2 => exact absurd e (by simp)
    case h_1 x hx =>
      split at e
      case h_2 => exact absurd e (by simp)
      case h_3 => exact absurd e (by simp)
      case h_1 r hr =>
        injection e with e
        subst e
        obtain ⟨rv, y, init'⟩ := r
        obtain ⟨h1, h2, h3⟩ := initAll_spec hr
        refine inv_replace h hx h1 (fun hs => ?_) (fun m hm => ?_) init'
        · rcases h3 with ⟨h3, _⟩ | ⟨_, m, hm, _⟩
          · rcases h2 with h2 | h2
            · rw [h2]
              exact h.fn i x hx (h3 ▸ hs)
            · exact h2.2
          · rw [hm]
            simp
        · rw [h1]
          rcases h2 with h2 | h2
          · exact h.mod i x m hx (h2 ▸ hm)
          · rw [← h2.1, hm]
  | finalize i rv =>
    simp only [step] at e
    split at e
    case h_2 => exact absurd e (by simp)
    case h_1 x hx =>
      split at e
      case h_2 => exact absurd e (by simp)
      case h_3 => exact absurd e (by simp)
      case h_1 r hr =>
        injection e with e
        subst e
        exact ⟨h.fn, h.mod, h.who⟩
  | drop i rv =>
    simp only [step] at e
    split at e
    case h_2 => exact absurd e (by simp)
    case h_1 x hx => exact (destroy_spec h hx e).1

/-- Any history. -/
abbrev Run (w : World) (s : St) : Prop := Reach (step w) (fun _ _ => True) start s

theorem run_inv {s : St} (h : Run w s) : Inv w s :=
  h.inv (P := Inv w) inv_start fun _ _ _ hi _ e => inv_step hi e

/-- **C183, which module**: an object that says it is initialised has the functions of the module it loaded; if it loaded none, those of the program. -/
theorem C183_module {s : St} (h : Run w s) {i m : Nat} (hu : Uses s i m) :
    ∃ x, s.objs i = some x ∧ (x.handle = some m ∨ (x.handle = none ∧ w.program = some m)) := by
  obtain ⟨x, hx, _, hf⟩ := hu
  exact ⟨x, hx, find_cases ((run_inv h).mod i x m hx hf)⟩

/-- A module that some object has loaded, or that belongs to the program, is in memory; so the functions of an object can be called. -/
theorem C183_mapped {s : St} (h : Run w s) {i m : Nat} (hu : Uses s i m) : mapped w (s.who m) m = true := by
  obtain ⟨x, hx, hc⟩ := C183_module h hu
  rw [mapped_iff]
  rcases hc with hc | hc
  · exact .inl (List.ne_nil_of_mem (((run_inv h).who i m).2 ⟨x, hx, hc⟩))
  · exact .inr hc.2

/-- **C183 violated**: an object whose module could not be loaded is not refused if the program offers `C_GetFunctionList`: `initialize` returns `OK` and another
module is initialised. -/
theorem C183_not_loaded_violated {s : St} {i m : Nat} (hi : s.objs i = none) (hp : w.program = some m) (hm : s.init m = false) :
    ∃ s', runOps (step w) s [.create i none, .init i ⟨OK, OK, OK, OK⟩] = .ok s' ∧ Uses s' i m ∧ s'.init m = true ∧
      ∃ x, s'.objs i = some x ∧ x.handle = none := by
  refine ⟨⟨upd (upd s.objs i (some ⟨none, none, NOT_INITIALIZED⟩)) i (some ⟨none, some m, OK⟩), s.who, upd s.init m true⟩, ?_, ?_, ?_, ?_⟩
  · simp [runOps, step, hi, initAll, readFunctions, find, hp, initializeRest, cInitialize, hm, OK]
  · exact ⟨⟨none, some m, OK⟩, upd_self _ _ _, rfl, rfl⟩
  · exact upd_self _ _ _
  · exact ⟨⟨none, some m, OK⟩, upd_self _ _ _, rfl⟩

example : ∃ s', runOps (step ⟨fun _ => true, some 7⟩) start [.create 0 none, .init 0 ⟨OK, OK, OK, OK⟩] = .ok s' ∧ Uses s' 0 7 ∧ s'.init 7 = true ∧
    ∃ x, s'.objs 0 = some x ∧ x.handle = none := C183_not_loaded_violated rfl rfl rfl

/-- Nothing is finalised by hand. -/
def careful (_ : St) : Op → Prop
  | .finalize _ _ => False
  | _ => True

instance (s : St) (o : Op) : Decidable (careful s o) := by cases o <;> unfold careful <;> infer_instance

/-- Histories in which nothing is finalised by hand. -/
abbrev Calm (w : World) (s : St) : Prop := Reach (step w) careful start s

structure Sole (w : World) (s : St) : Prop where
  inv : Inv w s
  on : ∀ i m, Uses s i m → s.init m = true
  one : ∀ i j m, Uses s i m → Uses s j m → i = j

/-- What an operation on one object does to what another one uses. -/
theorem uses_other {s s' : St} (h : Inv w s) {o : Op} (e : step w s o = .ok s') {i : Nat} (hi : o.about ≠ i) : s'.objs i = s.objs i := by
  cases o with
  | create k found =>
    cases found <;>
    · simp only [step] at e
      split at e
      · injection e with e
        subst e
        exact upd_ne _ _ (Ne.symm hi)
      · exact absurd e (by simp)
  | init k a =>
    simp only [step] at e
    split at e
    · split at e
      · injection e with e
        subst e
        exact upd_ne _ _ (Ne.symm hi)
      all_goals exact absurd e (by simp)
    · exact absurd e (by simp)
  | finalize k rv =>
    simp only [step] at e
    split at e
    · split at e
      · injection e with e
        subst e
        rfl
      all_goals exact absurd e (by simp)
    · exact absurd e (by simp)
  | drop k rv =>
    simp only [step] at e
    split at e
    · rename_i x hx
      rw [(destroy_spec h hx e).2.1]
      exact upd_ne _ _ (Ne.symm hi)
    · exact absurd e (by simp)

/-- **C183, one call, exactly**: a call on one object ends the initialisation of the module another one uses if and only if it finalises or destroys
an object that uses the same module, and the module agrees. -/
theorem C183_step_exact {s s' : St} (h : Run w s) {i m : Nat} (hu : Uses s i m) (hm : s.init m = true) {o : Op} (e : step w s o = .ok s')
    (ho : o.about ≠ i) :
    s'.init m = false ↔ Uses s o.about m ∧ (o = .finalize o.about OK ∨ o = .drop o.about OK) := by
  have hinv := run_inv h
  have hu' : Uses s' i m := by
    obtain ⟨x, hx, hs, hf⟩ := hu
    exact ⟨x, (uses_other hinv e ho).trans hx, hs, hf⟩
  have hmap : mapped w (s'.who m) m = true := C183_mapped (.step h trivial e) hu'
  cases o with
  | create k found =>
    have : s'.init = s.init := by
      cases found <;>
      · simp only [step] at e
        split at e
        · injection e with e
          subst e
          rfl
        · exact absurd e (by simp)
    rw [this, hm]
    simp
  | init k a =>
    have : s'.init m = true := by
      simp only [step] at e
      split at e
      · split at e
        · rename_i r hr
          injection e with e
          subst e
          obtain ⟨rv, y, init'⟩ := r
          rcases (initAll_spec hr).2.2 with ⟨_, h3⟩ | ⟨_, k, _, hk, h3⟩
          · simp only [h3, hm]
          · simp only [h3]
            by_cases ek : m = k
            · subst ek
              exact upd_self _ _ _
            · rw [upd_ne _ _ ek, hm]
        all_goals exact absurd e (by simp)
      · exact absurd e (by simp)
    rw [this]
    simp
  | finalize k rv =>
    simp only [step] at e
    split at e
    · rename_i x hx
      split at e
      · rename_i r hr
        injection e with e
        subst e
        simp only [Op.about]
        constructor
        · intro hf
          rcases finalize_spec hr with h1 | ⟨q, h1, h2, _, h4, h5⟩
          · rw [h1, hm] at hf
            exact absurd hf (by simp)
          · rw [h5] at hf
            by_cases eq : m = q
            · subst eq
              exact ⟨⟨x, hx, h1, h2⟩, .inl (by rw [h4])⟩
            · rw [upd_ne _ _ eq, hm] at hf
              exact absurd hf (by simp)
        · rintro ⟨⟨y, hy, h1, h2⟩, h3⟩
          rw [hx] at hy
          injection hy with hy
          subst hy
          have hrv : rv = OK := by
            rcases h3 with h3 | h3
            · injection h3
            · exact absurd h3 (by simp)
          subst hrv
          unfold finalize at hr
          rw [if_pos h1, h2] at hr
          simp only at hr
          injection hr with hr
          rw [← hr]
          unfold cFinalize
          rw [if_pos hm, if_pos rfl]
          exact upd_self _ _ _
      all_goals exact absurd e (by simp)
    · exact absurd e (by simp)
  | drop k rv =>
    simp only [step] at e
    split at e
    · rename_i x hx
      obtain ⟨_, _, _, r, hr, hin⟩ := destroy_spec hinv hx e
      have hin' : s'.init m = r.2 m := by rw [hin m, if_neg (by rw [hmap]; simp)]
      rw [hin']
      simp only [Op.about]
      constructor
      · intro hf
        rcases finalize_spec hr with h1 | ⟨q, h1, h2, _, h4, h5⟩
        · rw [h1, hm] at hf
          exact absurd hf (by simp)
        · rw [h5] at hf
          by_cases eq : m = q
          · subst eq
            exact ⟨⟨x, hx, h1, h2⟩, .inr (by rw [h4])⟩
          · rw [upd_ne _ _ eq, hm] at hf
            exact absurd hf (by simp)
      · rintro ⟨⟨y, hy, h1, h2⟩, h3⟩
        rw [hx] at hy
        injection hy with hy
        subst hy
        have hrv : rv = OK := by
          rcases h3 with h3 | h3
          · exact absurd h3 (by simp)
          · injection h3
        subst hrv
        unfold finalize at hr
        rw [if_pos h1, h2] at hr
        simp only at hr
        injection hr with hr
        rw [← hr]
        unfold cFinalize
        rw [if_pos hm, if_pos rfl]
        exact upd_self _ _ _
    · exact absurd e (by simp)

theorem calm_run {s : St} (h : Calm w s) : Run w s := by
  induction h with
  | start => exact .start
  | step _ _ e ih => exact .step ih trivial e

theorem calm_sole {s : St} (h : Calm w s) : Sole w s := by
  induction h with
  | start =>
    refine ⟨inv_start, fun i m hu => ?_, fun i j m hu => ?_⟩ <;>
    · obtain ⟨x, hx, _⟩ := hu
      simp [start] at hx
  | @step s s' o hr hc e ih =>
    have hrun := calm_run hr
    have hinv := ih.inv
    have hinv' := inv_step hinv e
    -- who uses a module afterwards used it before, or has just initialised it
    have key : ∀ i m, Uses s' i m → (Uses s i m ∧ s'.init m = true) ∨ (o.about = i ∧ s.init m = false ∧ s'.init m = true) := by
      intro i m hu
      by_cases ho : o.about = i
      · obtain ⟨y, hy, hs, hf⟩ := hu
        cases o with
        | create k found =>
          simp only [Op.about] at ho
          subst ho
          cases found <;>
          · simp only [step] at e
            split at e
            · injection e with e
              subst e
              simp only [upd_self] at hy
              injection hy with hy
              subst hy
              exact absurd hs notInit_ne_ok
            · exact absurd e (by simp)
        | init k a =>
          simp only [Op.about] at ho
          subst ho
          simp only [step] at e
          split at e
          · rename_i x hx
            split at e
            · rename_i r hr
              injection e with e
              subst e
              obtain ⟨rv, z, init'⟩ := r
              simp only [upd_self] at hy
              injection hy with hy
              subst hy
              obtain ⟨h1, h2, h3⟩ := initAll_spec hr
              -- the functions it had, if it had any
              have hfun : ∀ q, x.functions = some q → q = m := fun q hq => by
                have := hinv.mod k x q hx hq
                rcases h2 with h2 | h2
                · rw [h2, hq] at hf
                  injection hf
                · rw [h2.1, this] at hf
                  injection hf
              rcases h3 with ⟨h3, h4⟩ | ⟨h3, q, hq, hi, h4⟩
              · left
                have hs' : x.status = OK := h3 ▸ hs
                cases hxf : x.functions with
                | none => exact absurd hxf (hinv.fn k x hx hs')
                | some q =>
                  have := hfun q hxf
                  subst this
                  have hu : Uses s k q := ⟨x, hx, hs', hxf⟩
                  exact ⟨hu, by simp only [h4]; exact ih.on k q hu⟩
              · rw [hf] at hq
                injection hq with hq
                subst hq
                exact .inr ⟨rfl, hi, by simp only [h4]; exact upd_self _ _ _⟩
            all_goals exact absurd e (by simp)
          · exact absurd e (by simp)
        | finalize k rv => exact absurd hc id
        | drop k rv =>
          simp only [Op.about] at ho
          subst ho
          simp only [step] at e
          split at e
          · rename_i x hx
            rw [(destroy_spec hinv hx e).2.1, upd_self] at hy
            exact absurd hy (by simp)
          · exact absurd e (by simp)
      · left
        have hu0 : Uses s i m := by
          obtain ⟨y, hy, hs, hf⟩ := hu
          exact ⟨y, (uses_other hinv e ho).symm.trans hy, hs, hf⟩
        refine ⟨hu0, ?_⟩
        cases hb : s'.init m with
        | true => rfl
        | false =>
          obtain ⟨hd, _⟩ := (C183_step_exact hrun hu0 (ih.on i m hu0) e ho).1 hb
          exact absurd (ih.one _ _ m hd hu0) ho
    refine ⟨hinv', fun i m hu => ?_, fun i j m hi hj => ?_⟩
    · rcases key i m hu with h | h
      · exact h.2
      · exact h.2.2
    · rcases key i m hi with h1 | h1 <;> rcases key j m hj with h2 | h2
      · exact ih.one i j m h1.1 h2.1
      · exact absurd (ih.on i m h1.1) (by rw [h2.2.1]; simp)
      · exact absurd (ih.on j m h2.1) (by rw [h1.2.1]; simp)
      · rw [← h1.1, h2.1]

/-- **C183 (partial: nothing is finalised by hand)**: an object that says it is initialised has its module initialised, no other object uses that module,
and no call on other objects changes this. -/
theorem C183_undisturbed_partial {s : St} (h : Calm w s) {i m : Nat} (hu : Uses s i m) :
    s.init m = true ∧ (∀ j, Uses s j m → j = i) ∧
    ∀ ops s', (∀ o ∈ ops, o.about ≠ i ∧ careful s o) → runOps (step w) s ops = .ok s' → Uses s' i m ∧ s'.init m = true := by
  have hs := calm_sole h
  refine ⟨hs.on i m hu, fun j hj => hs.one j i m hj hu, fun ops => ?_⟩
  induction ops generalizing s with
  | nil =>
    intro s' _ e
    rw [runOps_nil] at e
    injection e with e
    subst e
    exact ⟨hu, hs.on i m hu⟩
  | cons o ops ih =>
    intro s' ho e
    rw [runOps] at e
    cases e1 : step w s o with
    | ub => rw [e1] at e; exact absurd e (by simp)
    | loop => rw [e1] at e; exact absurd e (by simp)
    | ok s1 =>
      rw [e1] at e
      have h1 : Calm w s1 := .step h (ho o List.mem_cons_self).2 e1
      have hu1 : Uses s1 i m := by
        obtain ⟨x, hx, hst, hf⟩ := hu
        exact ⟨x, (uses_other hs.inv e1 (ho o List.mem_cons_self).1).trans hx, hst, hf⟩
      refine ih h1 hu1 (calm_sole h1) s' (fun o' ho' => ?_) e
      have := ho o' (List.mem_cons_of_mem _ ho')
      exact ⟨this.1, by cases o' <;> exact this.2⟩

/-- Objects 0 and 1 use modules 3 and 4; object 2 names module 3 too and was refused. -/
example : ∃ s, Calm ⟨fun _ => true, none⟩ s ∧
    ((s.objs 0).map fun x => (x.status, x.functions), (s.objs 1).map fun x => (x.status, x.functions), (s.objs 2).map fun x => (x.status, x.functions)) =
      (some (OK, some 3), some (OK, some 4), some (NOT_INITIALIZED, some 3)) :=
  Reach.witness (step := step ⟨fun _ => true, none⟩) (pre := careful) (s₀ := start) [.create 0 (some 3), .create 1 (some 4), .create 2 (some 3),
    .init 0 ⟨OK, OK, OK, OK⟩, .init 1 ⟨OK, NOT_SUPPORTED, OK, OK⟩, .init 2 ⟨OK, OK, OK, OK⟩] _ _ (by decide +kernel)

/-- C183: while an object uses a module, another object for the same module is told so and nothing changes, whatever the module would have answered. -/
theorem C183_second_refused {s : St} (h : Calm w s) {i m : Nat} (hu : Uses s i m) {y : Obj} (hf : find w y.handle = some m)
    {a : Answers} (ha : a.functionList = OK) (hb : a.interfaceList = OK ∨ a.interfaceList = NOT_SUPPORTED) :
    initAll w a y s.init = .ok (ALREADY_INITIALIZED, { y with functions := some m }, s.init) := by
  have hm := (calm_sole h).on i m hu
  unfold initAll readFunctions
  simp only [hf, ha, ne_eq, not_true, if_false]
  rw [if_neg (by rcases hb with hb | hb <;> simp [hb])]
  simp [initializeRest, cInitialize, hm, ALREADY_INITIALIZED, OK]

/-- **C183 violated by `finalize`**: an object finalised by hand still says it is initialised; another object may then initialise the module, and destroying the
first one finalises it under the second, which still says it is initialised. -/
theorem C183_finalize_violated {s : St} (h : Run w s) {i j m : Nat} (hij : j ≠ i) (hu : Uses s i m) (hm : s.init m = true) {y : Obj}
    (hy : s.objs j = some y) (hf : find w y.handle = some m) :
    ∃ s', runOps (step w) s [.finalize i OK, .init j ⟨OK, OK, OK, OK⟩, .drop i OK] = .ok s' ∧ Uses s' j m ∧ s'.init m = false := by
  obtain ⟨x, hx, hs, hfx⟩ := hu
  have e1 : step w s (.finalize i OK) = .ok { s with init := upd s.init m false } := by
    simp [step, hx, finalize, hs, hfx, cFinalize, hm]
  let s1 : St := { s with init := upd s.init m false }
  let z : Obj := ⟨y.handle, some m, OK⟩
  let s2 : St := { s1 with
    objs := upd s.objs j (some z)
    init := upd (upd s.init m false) m true }
  have e2 : step w s1 (.init j ⟨OK, OK, OK, OK⟩) = .ok s2 := by
    simp [step, s1, s2, z, hy, initAll, readFunctions, hf, initializeRest, cInitialize, OK]
  have hx2 : s2.objs i = some x := (upd_ne _ _ (Ne.symm hij)).trans hx
  have h1 : Run w s1 := .step h trivial e1
  have h2 : Run w s2 := .step h1 trivial e2
  have hu2 : Uses s2 j m := ⟨z, upd_self _ _ _, rfl, rfl⟩
  have hi2 : s2.init m = true := upd_self _ _ _
  have hd : ∃ s3, step w s2 (.drop i OK) = .ok s3 := by
    simp only [step, hx2, destroy, finalize, if_pos hs, hfx]
    cases x.handle with
    | none => exact ⟨_, rfl⟩
    | some k => exact ⟨_, rfl⟩
  obtain ⟨s3, e3⟩ := hd
  refine ⟨s3, ?_, ?_, ?_⟩
  · rw [runOps, e1]
    simp only
    rw [runOps, show step w { s with init := upd s.init m false } (.init j ⟨OK, OK, OK, OK⟩) = .ok s2 from e2]
    simp only
    rw [runOps, e3]
    simp only [runOps_nil]
  · obtain ⟨q, hq, hqs, hqf⟩ := hu2
    exact ⟨q, (uses_other (run_inv h2) e3 (i := j) (Ne.symm hij)).trans hq, hqs, hqf⟩
  · exact (C183_step_exact h2 hu2 hi2 e3 (Ne.symm hij)).2 ⟨⟨x, hx2, hs, hfx⟩, .inr rfl⟩

/-- Two objects for one module; the first is finalised by hand. -/
example : ∃ s', runOps (step ⟨fun _ => true, none⟩) start [.create 0 (some 3), .create 1 (some 3), .init 0 ⟨OK, OK, OK, OK⟩,
      .init 1 ⟨OK, OK, OK, OK⟩, .finalize 0 OK, .init 1 ⟨OK, OK, OK, OK⟩, .drop 0 OK] = .ok s' ∧
    (s'.objs 1).map (·.status) = some OK ∧ s'.init 3 = false := ⟨_, rfl, by decide, by decide⟩

/-- The module is initialised and no object uses it. -/
def Orphan (s : St) (m : Nat) : Prop := s.init m = true ∧ ∀ i, ¬ Uses s i m

/-- C183: a failing `C_GetInfo` leaves the module initialised with no object using it. -/
theorem C183_orphan_made {s : St} (h : Run w s) {i m : Nat} {x : Obj} (hx : s.objs i = some x) (hf : find w x.handle = some m) (hn : ∀ j, ¬ Uses s j m)
    (hm : s.init m = false) {e : Rv} (he : e ≠ OK) :
    ∃ s', step w s (.init i ⟨OK, OK, OK, e⟩) = .ok s' ∧ Orphan s' m := by
  have hst : x.status ≠ OK := fun c => by
    cases hxf : x.functions with
    | none => exact (run_inv h).fn i x hx c hxf
    | some q =>
      have := (run_inv h).mod i x q hx hxf
      rw [hf] at this
      injection this with this
      subst this
      exact hn i ⟨x, hx, c, hxf⟩
  refine ⟨⟨upd s.objs i (some { x with functions := some m }), s.who, upd s.init m true⟩, ?_, upd_self _ _ _, fun j hj => ?_⟩
  · simp [step, hx, initAll, readFunctions, hf, initializeRest, cInitialize, hm, he]
  · obtain ⟨y, hy, hys, hyf⟩ := hj
    by_cases ej : j = i
    · subst ej
      simp only [upd_self] at hy
      injection hy with hy
      subst hy
      exact hst hys
    · simp only [upd_ne _ _ ej] at hy
      exact hn j ⟨y, hy, hys, hyf⟩

/-- **C183 violated, orphans are for ever**: whatever is called, a module that is initialised with no object using it stays so until it is unmapped; in particular no
object can ever initialise it. -/
theorem C183_orphan_forever {s s' : St} (h : Run w s) {m : Nat} (ho : Orphan s m) {o : Op} (e : step w s o = .ok s') :
    (mapped w (s'.who m) m = true → Orphan s' m) ∧ ∀ i, ¬ Uses s' i m := by
  have hinv := run_inv h
  have hno : ∀ i, ¬ Uses s' i m := by
    intro i hu
    by_cases hi : o.about = i
    · obtain ⟨y, hy, hs, hf⟩ := hu
      cases o with
      | create k found =>
        simp only [Op.about] at hi
        subst hi
        cases found <;>
        · simp only [step] at e
          split at e
          · injection e with e
            subst e
            simp only [upd_self] at hy
            injection hy with hy
            subst hy
            exact absurd hs notInit_ne_ok
          · exact absurd e (by simp)
      | init k a =>
        simp only [Op.about] at hi
        subst hi
        simp only [step] at e
        split at e
        · rename_i x hx
          split at e
          · rename_i r hr
            injection e with e
            subst e
            obtain ⟨rv, z, init'⟩ := r
            simp only [upd_self] at hy
            injection hy with hy
            subst hy
            obtain ⟨_, h2, h3⟩ := initAll_spec hr
            rcases h3 with ⟨h3, _⟩ | ⟨_, q, hq, hq', _⟩
            · have hs' : x.status = OK := h3 ▸ hs
              cases hxf : x.functions with
              | none => exact hinv.fn k x hx hs' hxf
              | some q =>
                have hfind := hinv.mod k x q hx hxf
                have : q = m := by
                  rcases h2 with h2 | h2
                  · rw [h2, hxf] at hf
                    injection hf
                  · rw [h2.1, hfind] at hf
                    injection hf
                subst this
                exact ho.2 k ⟨x, hx, hs', hxf⟩
            · rw [hf] at hq
              injection hq with hq
              subst hq
              rw [ho.1] at hq'
              exact absurd hq' (by simp)
          all_goals exact absurd e (by simp)
        · exact absurd e (by simp)
      | finalize k rv =>
        simp only [step] at e
        split at e
        · split at e
          · injection e with e
            subst e
            exact ho.2 i ⟨y, hy, hs, hf⟩
          all_goals exact absurd e (by simp)
        · exact absurd e (by simp)
      | drop k rv =>
        simp only [Op.about] at hi
        subst hi
        simp only [step] at e
        split at e
        · rename_i x hx
          rw [(destroy_spec hinv hx e).2.1, upd_self] at hy
          exact absurd hy (by simp)
        · exact absurd e (by simp)
    · obtain ⟨y, hy, hs, hf⟩ := hu
      exact ho.2 i ⟨y, (uses_other hinv e hi).symm.trans hy, hs, hf⟩
  refine ⟨fun hmap => ⟨?_, hno⟩, hno⟩
  cases o with
  | create k found =>
    cases found <;>
    · simp only [step] at e
      split at e
      · injection e with e
        subst e
        exact ho.1
      · exact absurd e (by simp)
  | init k a =>
    simp only [step] at e
    split at e
    · split at e
      · rename_i r hr
        injection e with e
        subst e
        obtain ⟨rv, z, init'⟩ := r
        rcases (initAll_spec hr).2.2 with ⟨_, h4⟩ | ⟨_, q, _, hq', h4⟩
        · simp only [h4]
          exact ho.1
        · simp only [h4]
          by_cases eq : m = q
          · subst eq
            exact upd_self _ _ _
          · rw [upd_ne _ _ eq]
            exact ho.1
      all_goals exact absurd e (by simp)
    · exact absurd e (by simp)
  | finalize k rv =>
    simp only [step] at e
    split at e
    · rename_i x hx
      split at e
      · rename_i r hr
        injection e with e
        subst e
        simp only
        rcases finalize_spec hr with h1 | ⟨q, h1, h2, _, _, h5⟩
        · rw [h1]
          exact ho.1
        · rw [h5, upd_ne _ _ (show m ≠ q from fun c => ho.2 k ⟨x, hx, h1, by rw [c]; exact h2⟩)]
          exact ho.1
      all_goals exact absurd e (by simp)
    · exact absurd e (by simp)
  | drop k rv =>
    simp only [step] at e
    split at e
    · rename_i x hx
      obtain ⟨_, _, _, r, hr, hin⟩ := destroy_spec hinv hx e
      rw [hin m, if_neg (by rw [hmap]; simp)]
      rcases finalize_spec hr with h1 | ⟨q, h1, h2, _, _, h5⟩
      · rw [h1]
        exact ho.1
      · rw [h5, upd_ne _ _ (show m ≠ q from fun c => ho.2 k ⟨x, hx, h1, by rw [c]; exact h2⟩)]
        exact ho.1
    · exact absurd e (by simp)

/-- A module whose `C_GetInfo` failed, and a second object for it. -/
example : ∃ s', runOps (step ⟨fun _ => true, none⟩) start [.create 0 (some 3), .create 1 (some 3), .init 0 ⟨OK, OK, OK, 5⟩, .drop 0 OK,
      .init 1 ⟨OK, OK, OK, OK⟩] = .ok s' ∧ s'.init 3 = true ∧ (s'.objs 1).map (·.status) = some NOT_INITIALIZED := ⟨_, rfl, by decide, by decide⟩

namespace Flame.Pkcs11.Several
open Own
private abbrev anyW : World := ⟨fun _ => true, none⟩
private abbrev sevOps : List Op := [.create 0 (some 3), .create 1 (some 3), .init 0 ⟨OK, OK, OK, OK⟩]
private theorem sev_run : Run anyW (visit (step anyW) (fun _ _ => True) start sevOps) := .visit _ (by decide +kernel)
private theorem sev_uses : Uses (visit (step anyW) (fun _ _ => True) start sevOps) 0 3 := ⟨_, rfl, rfl, rfl⟩
example := C183_module sev_run sev_uses
example := C183_mapped sev_run sev_uses
example := C183_step_exact sev_run sev_uses rfl (o := .drop 1 OK) rfl (by decide)
example := C183_second_refused (w := anyW) (.visit sevOps (by decide +kernel)) (i := 0) (m := 3) ⟨_, rfl, rfl, rfl⟩
  (y := ⟨some 3, none, NOT_INITIALIZED⟩) rfl (a := ⟨OK, OK, OK, OK⟩) rfl (.inl rfl)

namespace Flame.Pkcs11.Several
open Own
example := C183_orphan_made (w := anyW) (s := visit (step anyW) (fun _ _ => True) start [.create 0 (some 3)]) (.visit _ (by decide +kernel)) (i := 0) (m := 3)
  rfl rfl (by
    rintro j ⟨x, hx, hs, -⟩
    by_cases hj : j = 0
    · subst hj; cases hx; exact absurd hs (by decide)
    · change (if j = 0 then _ else none) = some x at hx
      simp [hj] at hx) rfl (e := 5) (by decide)
end Flame.Pkcs11.Several

end Flame.Pkcs11.Several
end Flame.Pkcs11.Several
