import Verif.Win.Rendezvous

/-! # C118: making both ends of a named pipe on Windows -/

namespace Flame.WinFifo
open Flame.Own

/-- In some schedule from the start. -/
def Reached (s : St) : Prop := ∃ l, run init l = some s

structure Inv (s : St) : Prop where
  cliOk : s.cli = .ok ↔ s.peer = some .ours
  srvOk : s.srv = .ok → s.peer ≠ none ∧ s.early = false
  waiting : s.srv = .waiting → s.peer = none
  start : s.srv = .start → s.peer = none ∧ Ev.made 0 ∉ s.log ∧ Ev.closed 0 ∉ s.log
  created : s.srv = .created → s.peer ≠ none → s.early = true
  inTime : s.peer ≠ none → s.early = false → s.srv = .ok
  live0 : s.srv = .created ∨ s.srv = .waiting ∨ s.srv = .ok → Live 0 s.log
  dead0 : ∀ e, s.srv = .failed e → ¬ Live 0 s.log
  made1 : Ev.made 1 ∈ s.log ↔ s.peer = some .ours
  closed1 : Ev.closed 1 ∉ s.log

theorem inv_init : Inv init := by
  refine ⟨?_, ?_, ?_, ?_, ?_, ?_, ?_, ?_, ?_, ?_⟩ <;> simp [init, Live]

theorem inv_step {s s' : St} {a : Act} (h : Inv s) (hs : step s a = some s') : Inv s' := by
  obtain ⟨srv, cli, peer, early, log⟩ := s
  obtain ⟨h1, h2, h3, h4, h5, h6, h7, h8, h9, h10⟩ := h
  simp only [Live] at h1 h2 h3 h4 h5 h6 h7 h8 h9 h10
  cases a <;> simp only [step, join, free] at hs
  all_goals
    cases srv <;> cases cli <;> rcases peer with _ | _ | _ <;> simp_all <;>
      first
        | (subst hs; constructor <;> simp_all [Live])
        | (obtain ⟨_, rfl⟩ := hs; constructor <;> simp_all [Live])

theorem reached_inv {s : St} (h : Reached s) : Inv s := by
  obtain ⟨l, hl⟩ := h
  have key : ∀ (l : List Act) (s₀ : St), Inv s₀ → run s₀ l = some s → Inv s := by
    intro l
    induction l with
    | nil => intro s₀ h e; injection e with e; subst e; exact h
    | cons a l ih =>
      intro s₀ h e
      simp only [run] at e
      cases hs : step s₀ a with
      | none => rw [hs] at e; cases e
      | some s₁ => rw [hs] at e; exact ih s₁ (inv_step h hs) e
  exact key l init inv_init hl

/-- C118: in every schedule: both ends are returned exactly if the second thread connected while the first was already
waiting. -/
theorem C118_both_iff {s : St} (h : Reached s) : (s.srv = .ok ∧ s.cli = .ok) ↔ (s.peer = some .ours ∧ s.early = false) := by
  have hi := reached_inv h
  constructor
  · intro ⟨h1, h2⟩
    exact ⟨hi.cliOk.mp h2, (hi.srvOk h1).2⟩
  · intro ⟨h1, h2⟩
    exact ⟨hi.inTime (by simp [h1]) h2, hi.cliOk.mpr h1⟩

/-- C118: handles: the reader's end is open exactly between its creation and a failure, the writer's end exactly if it
was opened. -/
theorem C118_handles {s : St} (h : Reached s) :
    (Live 0 s.log ↔ s.srv = .created ∨ s.srv = .waiting ∨ s.srv = .ok) ∧ (Live 1 s.log ↔ s.cli = .ok) := by
  have hi := reached_inv h
  refine ⟨⟨fun hl => ?_, hi.live0⟩, ?_⟩
  · cases hs : s.srv with
    | start => exact absurd hl.1 (hi.start hs).2.1
    | created => simp
    | waiting => simp
    | ok => simp
    | failed e => exact absurd hl (hi.dead0 e hs)
  · rw [hi.cliOk, ← hi.made1]
    exact ⟨fun hl => hl.1, fun hl => ⟨hl, hi.closed1⟩⟩

/-- C118: a failing system call is what the reader's end is reported with, nothing stays open, and nothing happens to the
writer's end. -/
theorem C118_failures {s : St} (h : Reached s) (e : Nat) :
    (s.srv = .start → ∃ s', step s (.createFail e) = some s' ∧ s'.srv = .failed e ∧ s'.cli = s.cli ∧ s'.log = s.log ∧ ¬ Live 0 s'.log) ∧
    (s.srv = .created ∨ s.srv = .waiting → ∃ s', step s (.connectFail e) = some s' ∧ s'.srv = .failed e ∧ s'.cli = s.cli ∧
      s'.log = .closed 0 :: s.log ∧ Live 0 s.log ∧ ¬ Live 0 s'.log) := by
  refine ⟨fun hs => ?_, fun hs => ?_⟩
  · refine ⟨{ s with srv := .failed e }, by simp [step, hs], rfl, rfl, rfl, fun hl => ?_⟩
    have := (C118_handles h).1.mp hl
    simp [hs] at this
  · refine ⟨{ s with srv := .failed e, log := .closed 0 :: s.log }, by simp [step, hs], rfl, rfl, rfl, ?_, fun hl => hl.2 (by simp)⟩
    rcases hs with hs | hs
    · exact (C118_handles h).1.mpr (.inl hs)
    · exact (C118_handles h).1.mpr (.inr (.inl hs))

example : ∃ s, run init [.create, .connect] = some s ∧ s.srv = .waiting := ⟨_, rfl, rfl⟩

/-- C118 (violated): if the second thread is faster than ConnectNamedPipe, the call fails although nothing went wrong: the
reader's end is closed and reported as an error, while the writer's end is reported as open, and stays open. -/
theorem C118_race_violated {s : St} (h : Reached s) (hf : Finished s) (hp : s.peer = some .ours) (he : s.early = true) :
    (∃ e, s.srv = .failed e) ∧ ¬ Live 0 s.log ∧ s.cli = .ok ∧ Live 1 s.log := by
  have hi := reached_inv h
  have hc := hi.cliOk.mpr hp
  rcases hf.1 with ho | ⟨e, ho⟩
  · rw [(hi.srvOk ho).2] at he; cases he
  · exact ⟨⟨e, ho⟩, hi.dead0 e ho, hc, (C118_handles h).2.mpr hc⟩

/-- Nothing fails in this schedule. -/
example : ∃ s, run init [.create, .client, .connect] = some s ∧ Finished s ∧ s.peer = some .ours ∧ s.early = true ∧ s.srv = .failed 535 :=
  ⟨_, rfl, ⟨.inr ⟨_, rfl⟩, by decide⟩, rfl, rfl, rfl⟩

/-- A schedule without failing system calls and without other processes. -/
def Plain (l : List Act) : Prop := ∀ a ∈ l, a = .create ∨ a = .connect ∨ a = .client

/-- C118 (violated): if the second thread is faster than CreateNamedPipe, the call never returns: it ends up waiting for a
peer that will not come, and no schedule continues from there. -/
theorem C118_hang_violated {l : List Act} (hl : Plain l) {s : St} (hs : run init (.client :: l) = some s) :
    ¬ Finished s ∧ s.cli = .failed 2 ∧ (s.srv = .waiting → step s .create = none ∧ step s .connect = none ∧ step s .client = none) := by
  have key : ∀ (l : List Act) (s₀ : St), Plain l → s₀.cli = .failed 2 → s₀.peer = none →
      (s₀.srv = .start ∨ s₀.srv = .created ∨ s₀.srv = .waiting) → run s₀ l = some s →
      s.cli = .failed 2 ∧ (s.srv = .start ∨ s.srv = .created ∨ s.srv = .waiting) := by
    intro l
    induction l with
    | nil => intro s₀ _ hc _ hv e; injection e with e; subst e; exact ⟨hc, hv⟩
    | cons a l ih =>
      intro s₀ hp hc hn hv e
      simp only [run] at e
      have hp' : Plain l := fun b hb => hp b (List.mem_cons_of_mem _ hb)
      rcases hp a (by simp) with rfl | rfl | rfl
      · simp only [step] at e
        rcases hv with hv | hv | hv <;> simp [hv] at e
        exact ih ⟨.created, s₀.cli, s₀.peer, s₀.early, .made 0 :: s₀.log⟩ hp' hc hn (.inr (.inl rfl)) e
      · simp only [step] at e
        rcases hv with hv | hv | hv <;> simp [hv, hn] at e
        exact ih ⟨.waiting, s₀.cli, none, s₀.early, s₀.log⟩ hp' hc rfl (.inr (.inr rfl)) e
      · simp [step, hc] at e
  have h0 : run init (.client :: l) = run ⟨.start, .failed 2, none, false, []⟩ l := rfl
  rw [h0] at hs
  obtain ⟨hc, hv⟩ := key l _ hl rfl rfl (.inl rfl) hs
  refine ⟨fun hf => ?_, hc, fun hw => by simp [step, hw, hc]⟩
  rcases hf.1 with h | ⟨e, h⟩ <;> rw [h] at hv <;> simp at hv

example : Plain [.create, .connect] ∧ ∃ s, run init [.client, .create, .connect] = some s ∧ s.srv = .waiting :=
  ⟨by simp [Plain], _, rfl, rfl⟩

/-- C118 (violated): the constructor `NamedPipeStream(name)` opens the writer's end before it makes the reader's end, in one
thread: without another process it never returns, and with one it returns without a writer's end. -/
theorem C118_ctor_violated :
    (∃ s, run init [.client, .create, .connect] = some s ∧ ¬ Finished s ∧ step s .create = none ∧ step s .connect = none ∧ step s .client = none) ∧
    (∃ s, run init [.client, .create, .connect, .foreign] = some s ∧ s.srv = .ok ∧ s.cli = .failed 2) :=
  ⟨⟨_, rfl, (C118_hang_violated (l := [.create, .connect]) (by simp [Plain]) rfl).1, rfl, rfl, rfl⟩, _, rfl, rfl, rfl⟩

/-- C118 (violated): if another process connects while the first thread waits, its end is returned with success, connected to
the other process; the second thread is refused. -/
theorem C118_foreign_violated {s : St} (h : Reached s) (hf : Finished s) (hp : s.peer = some .foreign) (he : s.early = false) :
    s.srv = .ok ∧ ∃ e, s.cli = .failed e := by
  have hi := reached_inv h
  refine ⟨hi.inTime (by simp [hp]) he, ?_⟩
  cases hc : s.cli with
  | start => exact absurd hc hf.2
  | ok => have := hi.cliOk.mp hc; rw [hp] at this; cases this
  | failed e => exact ⟨e, rfl⟩

example : ∃ s, run init [.create, .connect, .foreign, .client] = some s ∧ Finished s ∧ s.peer = some .foreign ∧ s.early = false ∧ s.cli = .failed 231 :=
  ⟨_, rfl, ⟨.inl rfl, by decide⟩, rfl, rfl, rfl⟩

/-- C118 (partial): if nothing fails, nobody else connects and the second thread is slow enough, the call returns both ends. -/
theorem C118_partial {l : List Act} {s : St} (hl : Plain l) (hs : run init (.create :: .connect :: l) = some s) (hc : s.cli ≠ .start) :
    Finished s ∧ s.srv = .ok ∧ s.cli = .ok ∧ Live 0 s.log ∧ Live 1 s.log := by
  have h0 : run init (.create :: .connect :: l) = run ⟨.waiting, .start, none, false, [.made 0]⟩ l := rfl
  rw [h0] at hs
  cases l with
  | nil => injection hs with hs; subst hs; exact absurd rfl hc
  | cons a l =>
    simp only [run] at hs
    rcases hl a (by simp) with rfl | rfl | rfl
    · simp [step] at hs
    · simp [step] at hs
    · have h1 : step ⟨.waiting, .start, none, false, [.made 0]⟩ .client = some ⟨.ok, .ok, some .ours, false, [.made 1, .made 0]⟩ := rfl
      rw [h1] at hs
      cases l with
      | nil => injection hs with hs; subst hs; exact ⟨⟨.inl rfl, by simp⟩, rfl, rfl, by decide, by decide⟩
      | cons b l =>
        simp only [Option.bind, run] at hs
        rcases hl b (by simp) with rfl | rfl | rfl <;> simp [step] at hs

example : ∃ s, run init (.create :: .connect :: [.client]) = some s ∧ s.cli ≠ .start := ⟨_, rfl, by decide⟩

namespace Flame
open WinFifo
example := C118_both_iff ⟨[.create, .connect, .client], rfl⟩
example := C118_handles ⟨[.create, .connect, .foreign, .client], rfl⟩
end Flame

end Flame.WinFifo
