import Verif.Win.Catcher

/-!
# C154: the Windows event catcher can be constructed and destroyed

The specification: from every state the program can get the catcher into, construction and destruction come to their ends, and the dispatch thread
has ended before the object it works on is destroyed.
-/

namespace Flame
open Flame.WinCatcher
open Flame.Own (Reach runPre)

namespace WinCatcherLemmas

/-- What holds in every reachable state. -/
structure Inv (s : WinCatcher.St) : Prop where
  creating : s.main = .creating → s.thr = .absent ∧ s.started = false ∧ s.handle = false ∧ s.finish = false
  started : s.started = true ↔ s.thr = .pumping ∨ s.thr = .ended
  handle : s.handle = true → s.started = true
  past : s.main ≠ .creating → s.main ≠ .polling → s.started = true
  fin : s.finish = true → s.handle = true
  stop : s.main = .stopping ∨ s.main = .joining → s.handle = true
  noWindow : s.started = true → s.handle = false → s.thr = .pumping ∧ s.finish = false ∧ s.main ≠ .done
  gone : s.handle = true → s.main = .baseJoin ∨ s.main = .done → s.thr = .ended

theorem inv_step {s s' : WinCatcher.St} {o : WinCatcher.Op} (h : Inv s) (hp : WinCatcher.pre s o) (hs : WinCatcher.step s o = .ok s') : Inv s' := by
  obtain ⟨main, thr, started, handle, finish⟩ := s
  obtain ⟨h1, h2, h3, h4, h5, h6, h7, h8⟩ := h
  cases o with
  | create ok =>
    simp only [WinCatcher.pre] at hp
    simp only at hp h1
    obtain ⟨rfl, rfl, rfl, rfl⟩ := h1 hp
    simp only [WinCatcher.step, Res.ok.injEq] at hs
    subst hs
    cases ok <;> constructor <;> simp
  | poll | leave | stop ok | join | joinBase | init w | message | finish | fail =>
    simp only [WinCatcher.pre] at hp
    simp only [WinCatcher.step, Res.ok.injEq] at hs
    subst hs
    simp only at *
    constructor <;> simp_all <;> grind

theorem inv_start : Inv WinCatcher.start := by constructor <;> simp [WinCatcher.start]

/-- How much is left to do before the destruction is over, once the thread has its window and FINISH gets through. -/
def left (s : WinCatcher.St) : Nat :=
  (match s.main with | .creating => 7 | .polling => 5 | .ready => 4 | .stopping => 3 | .joining => 2 | .baseJoin => 1 | .done => 0) +
  (match s.thr with | .absent => 3 | .fresh => 3 | .pumping => 1 | .ended => 0)

theorem absent_step {s s' : WinCatcher.St} {o : WinCatcher.Op} (h : s.main = .polling ∧ s.thr = .absent ∧ s.started = false)
    (hp : WinCatcher.pre s o) (hs : WinCatcher.step s o = .ok s') : s' = s := by
  obtain ⟨main, thr, started, handle, finish⟩ := s
  simp only at h
  obtain ⟨rfl, rfl, rfl⟩ := h
  cases o <;> simp_all [WinCatcher.pre, WinCatcher.step]

theorem reach_inv {s : WinCatcher.St} (h : Reach WinCatcher.step WinCatcher.pre WinCatcher.start s) : Inv s :=
  h.inv inv_start fun _ _ _ hk hp hs => inv_step hk hp hs

end WinCatcherLemmas
open WinCatcherLemmas

/-- The environment keeps its side: the dispatch thread and its window can be made, and FINISH finds room. -/
def WinCatcher.kind (s : WinCatcher.St) (o : WinCatcher.Op) : Prop :=
  WinCatcher.pre s o ∧ o ≠ .create false ∧ o ≠ .init false ∧ o ≠ .stop false

/-- **C154, the object is intact.** In every execution in which the window could be made, the dispatch thread has ended before the first part of its
object is destroyed. -/
theorem C154_intact {s : WinCatcher.St} (h : Reach WinCatcher.step WinCatcher.pre WinCatcher.start s) (hh : s.handle = true)
    (hm : s.main = .baseJoin ∨ s.main = .done) : s.thr = .ended :=
  (reach_inv h).gone hh hm

/-- **C154, using it.** In every execution the catcher is handed out only after the thread has tried to make its window. -/
theorem C154_ready {s : WinCatcher.St} (h : Reach WinCatcher.step WinCatcher.pre WinCatcher.start s) (hm : s.main = .ready) :
    s.started = true ∧ (s.thr = .pumping ∨ s.thr = .ended) := by
  have hi := reach_inv h
  have := hi.past (by simp [hm]) (by simp [hm])
  exact ⟨this, hi.started.mp this⟩

/-- **C154, what holds.** If the thread and the window can be made and FINISH gets through, then in every state before the end some step of
construction, use or destruction is possible that brings the end nearer, and no step takes it farther away; so whatever is scheduled, after
at most ten such steps the destructor has returned. -/
theorem C154_partial {s : WinCatcher.St} (h : Reach WinCatcher.step WinCatcher.kind WinCatcher.start s) :
    (∀ o s', WinCatcher.kind s o → WinCatcher.step s o = .ok s' → left s' ≤ left s) ∧
    (s.main ≠ .done → ∃ o s', WinCatcher.kind s o ∧ WinCatcher.step s o = .ok s' ∧ left s' < left s) ∧
    (s.main = .done → s.thr = .ended) := by
  have hk : Inv s ∧ (s.thr = .absent → s.main = .creating) ∧ (s.started = true → s.handle = true) ∧
      (s.main = .joining → s.thr = .pumping → s.finish = true) := by
    refine h.inv (P := fun s => Inv s ∧ (s.thr = .absent → s.main = .creating) ∧ (s.started = true → s.handle = true) ∧
      (s.main = .joining → s.thr = .pumping → s.finish = true))
      ⟨inv_start, by simp [WinCatcher.start], by simp [WinCatcher.start], by simp [WinCatcher.start]⟩ ?_
    intro s o s' ⟨hi, h1, h2, h3⟩ ⟨hp, hc, hw, hf⟩ hs
    refine ⟨inv_step hi hp hs, ?_⟩
    obtain ⟨i1, i2, i3, i4, i5, i6, i7, i8⟩ := hi
    obtain ⟨main, thr, started, handle, finish⟩ := s
    cases o with
    | create ok => cases ok <;> simp_all [WinCatcher.pre, WinCatcher.step] <;> subst hs <;> simp
    | init ok => cases ok <;> simp_all [WinCatcher.pre, WinCatcher.step] <;> subst hs <;> simp_all
    | stop ok => cases ok <;> simp_all [WinCatcher.pre, WinCatcher.step] <;> subst hs <;> simp_all
    | poll | leave | join | joinBase | message | finish | fail =>
      simp only [WinCatcher.pre] at hp
      simp only [WinCatcher.step, Res.ok.injEq] at hs
      subst hs
      simp_all <;> grind
  obtain ⟨hi, h1, h2, h3⟩ := hk
  clear h
  obtain ⟨i1, i2, i3, i4, i5, i6, i7, i8⟩ := hi
  obtain ⟨main, thr, started, handle, finish⟩ := s
  refine ⟨?_, ?_, ?_⟩
  · intro o s' ⟨hp, hc, hw, hf⟩ hs
    cases o with
    | create ok => cases ok <;> simp_all [WinCatcher.pre, WinCatcher.step] <;> subst hs <;> simp [left]
    | init ok => cases ok <;> simp_all [WinCatcher.pre, WinCatcher.step] <;> subst hs <;> simp [left]
    | stop ok => cases ok <;> simp_all [WinCatcher.pre, WinCatcher.step] <;> subst hs <;> simp [left]
    | poll | leave | join | joinBase | message | finish | fail =>
      simp only [WinCatcher.pre] at hp
      simp only [WinCatcher.step, Res.ok.injEq] at hs
      subst hs
      cases started <;> cases handle <;> simp_all [left]
  · intro hd
    simp only [WinCatcher.kind]
    cases main with
    | creating => exact ⟨.create true, _, ⟨by simp [WinCatcher.pre], by simp, by simp, by simp⟩, rfl, by simp_all [left]⟩
    | polling =>
      cases thr with
      | absent => simp_all
      | fresh => exact ⟨.init true, _, ⟨by simp [WinCatcher.pre], by simp, by simp, by simp⟩, rfl, by simp [left]⟩
      | pumping => exact ⟨.poll, _, ⟨by simp [WinCatcher.pre], by simp, by simp, by simp⟩, rfl, by simp_all [left]⟩
      | ended => exact ⟨.poll, _, ⟨by simp [WinCatcher.pre], by simp, by simp, by simp⟩, rfl, by simp_all [left]⟩
    | ready => exact ⟨.leave, _, ⟨by simp [WinCatcher.pre], by simp, by simp, by simp⟩, rfl, by simp_all [left]⟩
    | stopping => exact ⟨.stop true, _, ⟨by simp [WinCatcher.pre], by simp, by simp, by simp⟩, rfl, by simp [left]⟩
    | joining =>
      cases thr with
      | absent => simp_all
      | fresh => simp_all
      | pumping => exact ⟨.finish, _, ⟨by simp_all [WinCatcher.pre], by simp, by simp, by simp⟩, rfl, by simp [left]⟩
      | ended => exact ⟨.join, _, ⟨by simp [WinCatcher.pre], by simp, by simp, by simp⟩, rfl, by simp [left]⟩
    | baseJoin =>
      have : thr = .ended := by simp_all
      subst this
      exact ⟨.joinBase, _, ⟨by simp [WinCatcher.pre], by simp, by simp, by simp⟩, rfl, by simp [left]⟩
    | done => simp at hd
  · intro hd
    simp_all

/-- **C154 fails: no thread.** If the dispatch thread cannot be created, the constructor, and with it the first use of any registrar, never
returns: nothing that can happen changes anything. -/
theorem C154_no_thread_violated {s s' : WinCatcher.St} (h : WinCatcher.step WinCatcher.start (.create false) = .ok s)
    (hr : Reach WinCatcher.step WinCatcher.pre s s') : s' = s ∧ s'.main = .polling := by
  simp only [WinCatcher.step, WinCatcher.start, Res.ok.injEq] at h
  have : s' = s := hr.inv (P := fun t => t = s) rfl fun a o b ha hp hs => by
    rw [ha] at hp hs; exact absent_step (by subst h; simp) hp hs
  exact ⟨this, by rw [this]; subst h; rfl⟩

/-- **C154 fails: no window.** If the window cannot be made, the destructor never returns: the process does not end. -/
theorem C154_no_window_violated {s : WinCatcher.St} (h : Reach WinCatcher.step WinCatcher.pre WinCatcher.start s) (hs : s.started = true)
    (hh : s.handle = false) {s' : WinCatcher.St} (hr : Reach WinCatcher.step WinCatcher.pre s s') :
    s'.main ≠ .done ∧ s'.thr = .pumping ∧ ∀ o, WinCatcher.pre s' o → o = .poll ∨ o = .leave := by
  have := hr.inv (P := fun t => Inv t ∧ t.started = true ∧ t.handle = false) ⟨reach_inv h, hs, hh⟩ (fun a o b ⟨hi, ha, hb⟩ hp hst => by
    refine ⟨inv_step hi hp hst, ?_⟩
    have hi7 := hi.noWindow ha hb
    have hi1 := hi.creating
    cases o <;> simp only [WinCatcher.pre] at hp <;> simp only [WinCatcher.step, Res.ok.injEq] at hst <;> subst hst <;> simp_all)
  obtain ⟨hi, ha, hb⟩ := this
  obtain ⟨h1, h2, h3⟩ := hi.noWindow ha hb
  refine ⟨h3, h1, fun o hp => ?_⟩
  have hi1 := hi.creating
  have hi6 := hi.stop
  cases o <;> simp_all [WinCatcher.pre]

/-- **C154 fails: no room.** If FINISH finds no room in the queue of the thread, the destructor does not return before GetMessage fails by
itself. -/
theorem C154_no_room_violated {s : WinCatcher.St} (h : Reach WinCatcher.step WinCatcher.pre WinCatcher.start s) (hm : s.main = .joining)
    (ht : s.thr = .pumping) (hf : s.finish = false) {s' : WinCatcher.St}
    (hr : Reach WinCatcher.step (fun s o => WinCatcher.pre s o ∧ o ≠ .fail) s s') : s' = s := by
  clear h
  refine hr.inv (P := fun t => t = s) rfl fun a o b ha hp hs => ?_
  subst ha
  obtain ⟨hp, hn⟩ := hp
  cases o <;> simp_all [WinCatcher.pre, WinCatcher.step]

/-- **C154, a failing GetMessage.** It ends the thread: the destructor, waiting for it, then goes on to its end. -/
theorem C154_fail_ends {s : WinCatcher.St} (hm : s.main = .joining) (ht : s.thr = .pumping) (hh : s.handle = true) :
    (runPre WinCatcher.step WinCatcher.pre s [.fail, .join, .joinBase]).map (fun t => (t.main, t.thr, t.finish)) = some (.done, .ended, s.finish) := by
  simp [runPre, WinCatcher.pre, WinCatcher.step, hm, ht, hh]

example : ∃ s, Reach WinCatcher.step WinCatcher.pre WinCatcher.start s ∧ (s.main, s.thr, s.handle, s.finish) = (.joining, .pumping, true, false) :=
  Reach.witness (step := WinCatcher.step) [.create true, .init true, .poll, .leave, .stop false] (fun s => (s.main, s.thr, s.handle, s.finish)) _ (by decide +kernel)

/-! ## Concrete cases -/

instance (s : WinCatcher.St) (o : WinCatcher.Op) : Decidable (WinCatcher.kind s o) := inferInstanceAs (Decidable (_ ∧ _))

example : ∃ s, Reach WinCatcher.step WinCatcher.kind WinCatcher.start s ∧ s = ⟨.done, .ended, true, true, false⟩ :=
  Reach.witness [.create true, .poll, .init true, .poll, .message, .leave, .stop true, .message, .finish, .join, .joinBase] id _ rfl

example : ∃ s, Reach WinCatcher.step WinCatcher.pre WinCatcher.start s ∧ s = ⟨.baseJoin, .pumping, true, false, false⟩ :=
  Reach.witness [.create true, .init false, .poll, .leave] id _ rfl

example : ∃ s, Reach WinCatcher.step WinCatcher.pre WinCatcher.start s ∧ s = ⟨.joining, .pumping, true, true, false⟩ :=
  Reach.witness [.create true, .init true, .poll, .leave, .stop false] id _ rfl

namespace Flame
open Flame.WinCatcher
example := C154_intact (.visit ([.create true, .init true, .poll, .leave, .stop true, .message, .finish, .join] : List WinCatcher.Op) (by decide +kernel))
  rfl (.inl rfl)
example := C154_ready (.visit ([.create true, .init true, .poll] : List WinCatcher.Op) (by decide +kernel)) rfl
example := C154_partial (.visit ([.create true, .poll, .init true] : List WinCatcher.Op) (by decide +kernel))
example := C154_no_thread_violated (s := ⟨.polling, .absent, false, false, false⟩) rfl .start
example := C154_no_window_violated (.visit ([.create true, .init false, .poll] : List WinCatcher.Op) (by decide +kernel)) rfl rfl .start
example := C154_no_room_violated (.visit ([.create true, .init true, .poll, .leave, .stop false] : List WinCatcher.Op) (by decide +kernel)) rfl rfl rfl .start
end Flame

end Flame
