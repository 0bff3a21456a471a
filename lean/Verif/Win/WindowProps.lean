import Verif.Win.Window

/-!
# C197: the window of the dispatch thread
-/

namespace Flame
open Own (Reach upd upd_ne)

namespace WinWindow

/-- What holds between the steps. -/
structure Inv (s : St) : Prop where
  next : 0 < s.next
  none : s.cls = none → s.wins = []
  prog : s.cls = some .prog → ∀ p ∈ s.wins, p.2 = .prog
  lib : ∀ k, s.cls = some (.lib k) → s.wins = [((s.win k).handle, .lib k)] ∧ s.ph k = .running ∧ (s.win k).handle ≠ 0
  owns : ∀ k, s.ph k = .running → (s.win k).handle ≠ 0 → s.cls = some (.lib k)

theorem inv_start : Inv start := ⟨by decide, fun _ => rfl, fun h => (nomatch h), fun _ h => (nomatch h), fun _ h => (nomatch h)⟩

theorem make_new {s : St} (hc : s.cls = none) (k : Nat) : makeWindow s k none none =
    ({ s with cls := some (.lib k), wins := (s.next, .lib k) :: s.wins, next := s.next + 1 }, ⟨s.next, 49152 + s.next % 16384⟩) := by
  simp [makeWindow, regError, hc]

theorem make_fail {s : St} (h : Inv s) (k : Nat) {reg cre : Option Nat} (hf : ¬ (s.cls = none ∧ reg = none ∧ cre = none)) :
    (makeWindow s k reg cre).1 = s ∧ (makeWindow s k reg cre).2.handle = 0 := by
  unfold makeWindow regError
  cases hc : s.cls with
  | some o => simp
  | none =>
    have hw := h.none hc
    cases reg with
    | some e => simp
    | none =>
      cases cre with
      | some e =>
        simp only [Option.isSome_none, Bool.false_eq_true, if_false, unregister, hw, if_true]
        refine ⟨?_, trivial⟩
        cases s; simp_all
      | none => exact absurd ⟨hc, rfl, rfl⟩ hf

theorem inv_destroy {s : St} (h : Inv s) (k : Nat) (hk : s.ph k = .running) :
    Inv { destroyWindow s k (s.win k) with ph := upd s.ph k .ended } := by
  unfold destroyWindow unregister
  have hp : ∀ j, upd s.ph k .ended j = .running → j ≠ k ∧ s.ph j = .running := by
    intro j hj
    by_cases e : j = k
    · subst e; simp [upd] at hj
    · rw [upd_ne _ _ e] at hj; exact ⟨e, hj⟩
  cases hc : s.cls with
  | none =>
    have hw := h.none hc
    rw [hw]
    simp only [List.filter_nil, if_true]
    refine ⟨h.next, fun _ => rfl, fun e => (nomatch e), fun _ e => (nomatch e), ?_⟩
    intro j hj hh
    have := h.owns j (hp j hj).2 hh
    rw [hc] at this; cases this
  | some o =>
    cases o with
    | prog =>
      have hw := h.prog hc
      have hf : s.wins.filter (fun p => decide (p ≠ ((s.win k).handle, Who.lib k))) = s.wins := by
        rw [List.filter_eq_self]
        intro p hp'
        have := hw p hp'
        simp only [decide_eq_true_eq, ne_eq]
        rintro rfl
        cases this
      rw [hf]
      split
      · rename_i he
        simp only at he
        refine ⟨h.next, fun _ => he, fun e => (nomatch e), fun _ e => (nomatch e), ?_⟩
        intro j hj hh
        have := h.owns j (hp j hj).2 hh
        rw [hc] at this; cases this
      · refine ⟨h.next, fun e => (nomatch e), fun _ => hw, fun j e => (nomatch e), ?_⟩
        intro j hj hh
        have := h.owns j (hp j hj).2 hh
        rw [hc] at this; cases this
    | lib j =>
      obtain ⟨hw, hr, hn⟩ := h.lib j hc
      by_cases e : j = k
      · subst e
        rw [hw]
        simp only [ne_eq, decide_not, decide_true, Bool.not_true, Bool.false_eq_true, not_false_eq_true, List.filter_cons_of_neg,
          List.filter_nil, if_true]
        refine ⟨h.next, fun _ => rfl, fun e => (nomatch e), fun _ e => (nomatch e), ?_⟩
        intro i hi hh
        have := h.owns i (hp i hi).2 hh
        rw [hc] at this
        cases this
        exact absurd rfl (hp _ hi).1
      · have hf : s.wins.filter (fun p => decide (p ≠ ((s.win k).handle, Who.lib k))) = s.wins := by
          rw [hw, List.filter_eq_self]
          intro p hp'
          simp only [List.mem_singleton] at hp'
          subst hp'
          simp [e]
        rw [hf]
        rw [if_neg (by rw [hw]; simp)]
        refine ⟨h.next, fun e => (nomatch e), fun e => (nomatch e), ?_, ?_⟩
        · intro i hi
          simp only [Option.some.injEq, Who.lib.injEq] at hi
          subst hi
          exact ⟨hw, (upd_ne _ _ e).trans hr, hn⟩
        · intro i hi hh
          exact hc.symm.trans (h.owns i (hp i hi).2 hh)

theorem inv_step {s s' : St} {o : Op} (h : Inv s) (hp : pre s o) (hs : step s o = .ok s') : Inv s' := by
  cases o with
  | make k reg cre =>
    simp only [step, Res.ok.injEq] at hs
    subst hs
    simp only [pre] at hp
    by_cases hf : s.cls = none ∧ reg = none ∧ cre = none
    · obtain ⟨hc, rfl, rfl⟩ := hf
      rw [make_new hc]
      have hw := h.none hc
      have hn := h.next
      refine ⟨Nat.succ_pos _, fun e => (nomatch e), fun e => (nomatch e), ?_, ?_⟩
      · intro j e
        simp only [Option.some.injEq, Who.lib.injEq] at e
        subst e
        simp only [upd, if_true, hw]
        exact ⟨trivial, trivial, by omega⟩
      · intro j hj hh
        by_cases e : j = k
        · subst e; rfl
        · simp only [upd_ne _ _ e] at hj hh
          have := h.owns j hj hh
          rw [hc] at this; cases this
    · obtain ⟨h1, h2⟩ := make_fail h k hf
      rw [h1]
      have keep : ∀ j, j ≠ k → upd s.win k (makeWindow s k reg cre).2 j = s.win j := fun j e => upd_ne _ _ e
      refine ⟨h.next, h.none, h.prog, ?_, ?_⟩
      · intro j e
        obtain ⟨a, b, c⟩ := h.lib j e
        have ne : j ≠ k := by rintro rfl; rw [hp] at b; cases b
        simp only [keep j ne, upd_ne _ _ ne]
        exact ⟨a, b, c⟩
      · intro j hj hh
        by_cases e : j = k
        · subst e; simp only [upd, if_true] at hh; exact absurd h2 hh
        · simp only [upd_ne _ _ e] at hj hh
          exact h.owns j hj hh
  | finish k =>
    simp only [step, Res.ok.injEq] at hs
    subst hs
    exact inv_destroy h k hp.1
  | quit k =>
    simp only [step, Res.ok.injEq] at hs
    subst hs
    exact inv_destroy h k hp
  | progRegister =>
    simp only [step, Res.ok.injEq] at hs
    subst hs
    simp only [pre] at hp
    have hw := h.none hp
    refine ⟨h.next, fun e => (nomatch e), fun _ => by rw [hw]; simp, fun _ e => (nomatch e), ?_⟩
    intro j hj hh
    have := h.owns j hj hh
    rw [hp] at this; cases this
  | progUnregister =>
    simp only [step, Res.ok.injEq] at hs
    subst hs
    simp only [pre] at hp
    unfold unregister
    split
    · rename_i hw
      refine ⟨h.next, fun _ => hw, fun e => (nomatch e), fun _ e => (nomatch e), ?_⟩
      intro j hj hh
      have := h.owns j hj hh
      rw [hp] at this; cases this
    · exact h
  | progOpen =>
    simp only [step, Res.ok.injEq] at hs
    subst hs
    simp only [pre] at hp
    refine ⟨Nat.succ_pos _, fun e => (by simp at e; rw [hp] at e; cases e), ?_, fun j e => (by simp at e; rw [hp] at e; cases e), h.owns⟩
    intro _ p hpm
    rcases List.mem_cons.1 hpm with rfl | hpm
    · rfl
    · exact h.prog hp p hpm
  | progClose hd =>
    simp only [step, Res.ok.injEq] at hs
    subst hs
    simp only [pre] at hp
    refine ⟨h.next, ?_, ?_, ?_, h.owns⟩
    · intro e; simp [h.none e]
    · intro e p hpm; exact h.prog e p (List.mem_filter.1 hpm).1
    · intro k e
      obtain ⟨a, b, c⟩ := h.lib k e
      rw [a] at hp
      simp at hp

theorem reach_inv {s : St} (h : Reach step pre start s) : Inv s := h.inv inv_start fun _ _ _ a b c => inv_step a b c

end WinWindow
open WinWindow

/-- **C197, making it.**  The thread has a window exactly if nobody had registered the name and the system refused neither call.  Otherwise
nothing is left behind: classes and windows are as before, and the member that should hold the atom holds the error. -/
theorem C197_make_exact {s : WinWindow.St} (h : Reach WinWindow.step WinWindow.pre WinWindow.start s) (k : Nat) (reg cre : Option Nat) :
    ((makeWindow s k reg cre).2.handle ≠ 0 ↔ s.cls = none ∧ reg = none ∧ cre = none) ∧
    ((makeWindow s k reg cre).2.handle ≠ 0 → (makeWindow s k reg cre).1.cls = some (.lib k) ∧
      (makeWindow s k reg cre).1.wins = [((makeWindow s k reg cre).2.handle, .lib k)]) ∧
    ((makeWindow s k reg cre).2.handle = 0 → (makeWindow s k reg cre).1 = s ∧
      (makeWindow s k reg cre).2.atom = (if s.cls ≠ none then 1410 else (reg.or cre).getD 0 % 65536)) := by
  have hi := WinWindow.reach_inv h
  by_cases hf : s.cls = none ∧ reg = none ∧ cre = none
  · have hf' := hf
    obtain ⟨hc, rfl, rfl⟩ := hf
    have hn := hi.next
    rw [make_new hc]
    have hn' : s.next ≠ 0 := by omega
    refine ⟨⟨fun _ => hf', fun _ => hn'⟩, fun _ => ⟨rfl, by simp [hi.none hc]⟩, fun e => absurd e hn'⟩
  · obtain ⟨a, b⟩ := make_fail hi k hf
    refine ⟨⟨fun e => absurd b e, fun e => absurd e hf⟩, fun e => absurd b e, fun _ => ⟨a, ?_⟩⟩
    unfold makeWindow regError
    cases hc : s.cls with
    | some o => simp
    | none =>
      cases reg with
      | some e => simp
      | none =>
        cases cre with
        | some e => simp
        | none => exact absurd ⟨hc, rfl, rfl⟩ hf

example := C197_make_exact .start 0 none (some 1407)
example := C197_make_exact (s := { WinWindow.start with cls := some .prog }) (.step (o := .progRegister) .start rfl rfl) 0 none none

/-- **C197, atom or error.**  Whether the second member of the window is an atom can be seen from its value, if the system's error numbers are
below 0xC000 (as they are). -/
theorem C197_atom_exact {s : WinWindow.St} (h : Reach WinWindow.step WinWindow.pre WinWindow.start s) (k : Nat) (reg cre : Option Nat)
    (hr : ∀ e, reg = some e → e < 0xC000) (hc : ∀ e, cre = some e → e < 0xC000) :
    0xC000 ≤ (makeWindow s k reg cre).2.atom ↔ (makeWindow s k reg cre).2.handle ≠ 0 := by
  have hn := (WinWindow.reach_inv h).next
  unfold makeWindow regError
  cases s.cls with
  | some o => simp
  | none =>
    cases reg with
    | some e =>
      have := hr e rfl
      simp; omega
    | none =>
      cases cre with
      | some e =>
        have := hc e rfl
        simp; omega
      | none => simp; omega

example := C197_atom_exact .start 0 none none (by simp) (by simp)
example := C197_atom_exact .start 0 none (some 8) (by simp) (by simp)

/-- **C197, given back.**  In every execution, a thread that has ended has left no window, and no class it registered. -/
theorem C197_given_back {s : WinWindow.St} (h : Reach WinWindow.step WinWindow.pre WinWindow.start s) (k : Nat) (hk : s.ph k = .ended) :
    s.cls ≠ some (.lib k) ∧ ∀ p ∈ s.wins, p.2 ≠ .lib k := by
  have hi := WinWindow.reach_inv h
  have h1 : s.cls ≠ some (.lib k) := by
    intro e
    have := (hi.lib k e).2.1
    rw [hk] at this; cases this
  refine ⟨h1, ?_⟩
  intro p hp
  cases hc : s.cls with
  | none => rw [hi.none hc] at hp; simp at hp
  | some o =>
    cases o with
    | prog => rw [hi.prog hc p hp]; intro e; cases e
    | lib j =>
      rw [(hi.lib j hc).1] at hp
      simp only [List.mem_singleton] at hp
      subst hp
      simp only [ne_eq, Who.lib.injEq]
      rintro rfl
      exact h1 hc

/-- Copy 0 has made its window. -/
def WinWindow.one : WinWindow.St :=
  ⟨some (.lib 0), [(1, .lib 0)], 2, upd (fun _ => ⟨0, 0⟩) 0 ⟨1, 49153⟩, upd (fun _ => .idle) 0 .running⟩

theorem WinWindow.one_reached : Reach WinWindow.step WinWindow.pre WinWindow.start one :=
  .step (o := .make 0 none none) .start rfl rfl

/-- It has ended again. -/
theorem WinWindow.one_ended : ∃ s, Reach WinWindow.step WinWindow.pre WinWindow.start s ∧ s.ph 0 = .ended :=
  ⟨_, .step (o := .finish 0) one_reached ⟨rfl, by decide⟩ rfl, rfl⟩

example := C197_given_back WinWindow.one_ended.choose_spec.1 0 WinWindow.one_ended.choose_spec.2

/-- **C197, one at a time.**  While a copy of the library has its window, the class is its own, and this window the only one of the class. -/
theorem C197_exclusive {s : WinWindow.St} (h : Reach WinWindow.step WinWindow.pre WinWindow.start s) (k : Nat) (hk : s.ph k = .running)
    (hw : (s.win k).handle ≠ 0) :
    s.cls = some (.lib k) ∧ s.wins = [((s.win k).handle, .lib k)] ∧
    ∀ j, s.ph j = .running → (s.win j).handle ≠ 0 → j = k := by
  have hi := WinWindow.reach_inv h
  have hc := hi.owns k hk hw
  refine ⟨hc, (hi.lib k hc).1, ?_⟩
  intro j hj hh
  have := hi.owns j hj hh
  rw [hc] at this
  cases this; rfl

example := C197_exclusive WinWindow.one_reached 0 rfl (by decide)

/-- **C197, violated (several copies).**  While one copy of the library in the process has its window — or the program a class of the name — no
other copy gets one, however willing the system: all its `enable` and `disable` calls fail, whatever the socket. -/
theorem C197_second_violated {s : WinWindow.St} (o : Who) (hc : s.cls = some o) (j : Nat) (reg cre : Option Nat) :
    (makeWindow s j reg cre).1 = s ∧ (makeWindow s j reg cre).2 = ⟨0, 1410⟩ ∧
    ∀ select, enableStatus (makeWindow s j reg cre).2 select = -1 := by
  have : makeWindow s j reg cre = (s, ⟨0, 1410⟩) := by simp [makeWindow, regError, hc]
  rw [this]
  exact ⟨rfl, rfl, fun _ => rfl⟩

example := C197_second_violated (s := WinWindow.one) (.lib 0) rfl 1 none none

/-- **C197, violated (somebody else's class).**  The thread of a copy that got no window still unregisters the class by its name: whoever registered
it, if no window of it is open at that moment — as after the program registered it — it is gone. -/
theorem C197_foreign_violated {s s' : WinWindow.St} (hw : s.wins = []) (k : Nat)
    (hs : WinWindow.step s (.quit k) = .ok s') : s'.cls = none := by
  simp only [WinWindow.step, Res.ok.injEq] at hs
  subst hs
  simp [destroyWindow, unregister, hw]

/-- The program has registered the name, then copy 0 has tried to. -/
theorem WinWindow.refused : ∃ s, Reach WinWindow.step WinWindow.pre WinWindow.start s ∧ s.cls = some .prog ∧ s.wins = [] ∧ s.ph 0 = .running :=
  ⟨_, .step (o := .make 0 none none) (.step (o := .progRegister) .start rfl rfl) rfl rfl, rfl, rfl, rfl⟩

example := C197_foreign_violated WinWindow.refused.choose_spec.2.2.1 0 rfl
example : WinWindow.pre WinWindow.refused.choose (.quit 0) := WinWindow.refused.choose_spec.2.2.2

/-- **C197, what ending does.**  A thread with a window ends with the class unregistered and no window of it left.  One without a window
changes nothing as long as a window of the class is open. -/
theorem C197_end_exact {s s' : WinWindow.St} (h : Reach WinWindow.step WinWindow.pre WinWindow.start s) (k : Nat) (hk : s.ph k = .running)
    (hs : WinWindow.step s (.quit k) = .ok s') :
    ((s.win k).handle ≠ 0 → s'.cls = none ∧ s'.wins = []) ∧
    ((s.win k).handle = 0 → s.wins ≠ [] → s'.cls = s.cls ∧ s'.wins = s.wins) := by
  have hi := WinWindow.reach_inv h
  simp only [WinWindow.step, Res.ok.injEq] at hs
  subst hs
  refine ⟨fun hw => ?_, fun h0 hw => ?_⟩
  · have hc := hi.owns k hk hw
    simp [destroyWindow, unregister, (hi.lib k hc).1]
  · have hf : s.wins.filter (fun p => decide (p ≠ ((s.win k).handle, Who.lib k))) = s.wins := by
      rw [List.filter_eq_self]
      intro p hp
      simp only [decide_eq_true_eq, ne_eq]
      rintro rfl
      cases hc : s.cls with
      | none => rw [hi.none hc] at hp; simp at hp
      | some o =>
        cases o with
        | prog => have := hi.prog hc _ hp; cases this
        | lib j =>
          obtain ⟨a, _, c⟩ := hi.lib j hc
          rw [a] at hp
          simp only [List.mem_singleton, Prod.mk.injEq, Who.lib.injEq] at hp
          obtain ⟨e, rfl⟩ := hp
          exact absurd h0 c
    simp only [destroyWindow, unregister, hf]
    rw [if_neg hw]
    exact ⟨rfl, rfl⟩

example := C197_end_exact WinWindow.one_reached 0 rfl (s' := { destroyWindow WinWindow.one 0 (WinWindow.one.win 0) with
  ph := upd WinWindow.one.ph 0 .ended }) rfl

/-- **C197, violated (the handle afterwards).**  Ending leaves the handle in the member: `enable` goes on passing the handle of a window that is
gone to the system instead of reporting that there is none. -/
theorem C197_stale_violated {s s' : WinWindow.St} (h : Reach WinWindow.step WinWindow.pre WinWindow.start s) (k : Nat) (hk : s.ph k = .running)
    (hw : (s.win k).handle ≠ 0) (hs : WinWindow.step s (.finish k) = .ok s') :
    (s'.win k).handle = (s.win k).handle ∧ (∀ p ∈ s'.wins, p.1 ≠ (s'.win k).handle) ∧
    ∀ select, enableStatus (s'.win k) select = select := by
  have he := (C197_end_exact h k hk (s' := s') (by rw [← hs]; rfl)).1 hw
  have hsame : s'.win k = s.win k := by
    simp only [WinWindow.step, Res.ok.injEq] at hs
    subst hs
    simp only [destroyWindow, unregister]
    split <;> rfl
  rw [hsame, he.2]
  exact ⟨rfl, by simp, fun x => by simp [enableStatus, hw]⟩

example := C197_stale_violated WinWindow.one_reached 0 rfl (by decide) (s' := { destroyWindow WinWindow.one 0 (WinWindow.one.win 0) with
  ph := upd WinWindow.one.ph 0 .ended }) rfl

/-- **C197, the program's own windows.**  A window the program opened stays open, and the class with it, until the program closes that window,
whatever the copies of the library do. -/
theorem C197_program_keeps {s s' : WinWindow.St} {o : WinWindow.Op} (h : Nat) (hw : (h, Who.prog) ∈ s.wins) (hc : s.cls = some .prog)
    (hs : WinWindow.step s o = .ok s') (hp : WinWindow.pre s o) (ho : o ≠ .progClose h) :
    (h, Who.prog) ∈ s'.wins ∧ s'.cls = some .prog := by
  have hne : s.wins ≠ [] := fun e => by rw [e] at hw; cases hw
  have hd : ∀ k, (h, Who.prog) ∈ (destroyWindow s k (s.win k)).wins ∧ (destroyWindow s k (s.win k)).cls = some .prog := by
    intro k
    have hm : (h, Who.prog) ∈ s.wins.filter (fun p => decide (p ≠ ((s.win k).handle, Who.lib k))) := by
      rw [List.mem_filter]; exact ⟨hw, by simp⟩
    have hn : s.wins.filter (fun p => decide (p ≠ ((s.win k).handle, Who.lib k))) ≠ [] := fun e => by rw [e] at hm; cases hm
    rw [destroyWindow, unregister, if_neg hn]
    exact ⟨hm, hc⟩
  cases o with
  | make k reg cre =>
    have e := (C197_second_violated .prog hc k reg cre).1
    simp only [WinWindow.step, Res.ok.injEq] at hs
    subst hs
    simp only [e]; exact ⟨hw, hc⟩
  | finish k => cases hs; exact hd k
  | quit k => cases hs; exact hd k
  | progRegister => rw [WinWindow.pre, hc] at hp; cases hp
  | progUnregister => cases hs; rw [unregister, if_neg hne]; exact ⟨hw, hc⟩
  | progOpen => cases hs; exact ⟨List.mem_cons_of_mem _ hw, hc⟩
  | progClose j =>
    cases hs
    refine ⟨List.mem_filter.2 ⟨hw, ?_⟩, hc⟩
    simp only [decide_eq_true_eq, ne_eq, Prod.mk.injEq, and_true]
    rintro rfl; exact ho rfl

example := C197_program_keeps (s := ⟨some .prog, [(2, .prog), (1, .prog)], 3, fun _ => ⟨0, 0⟩, fun _ => .idle⟩) (o := .progClose 2) 1
  (by simp) rfl rfl (by simp [WinWindow.pre]) (by decide)

end Flame
