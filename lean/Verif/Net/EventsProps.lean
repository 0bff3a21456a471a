import Verif.Net.Events

/-! # C78, C79: notifications of network events -/

namespace Flame
open Events
open Flame.Own (upd upd_self upd_ne)

namespace EventsSpec

/-- **Specification.** What a user of the registrar expects to find for an event on a descriptor of the kind the class made it. -/
inductive Kind where
  | udpServer | udpClient | tcpClient | tcpServer | listener
  deriving DecidableEq, Repr

/-- How the library makes them: servers set `SO_REUSEADDR` (SocketFunctions.cpp 77-84, 118-125), accepted sockets inherit it. -/
def Kind.sock : Kind → Sock
  | .udpServer => ⟨some false, true, false⟩
  | .udpClient => ⟨some false, false, false⟩
  | .tcpClient => ⟨some true, false, false⟩
  | .tcpServer => ⟨some true, true, false⟩
  | .listener => ⟨some true, true, true⟩

/-- The entry for an event on a descriptor of this kind; `k` connections were taken from it before. -/
def Kind.entry (fd k : Nat) : Kind → Entry
  | .udpServer => .udpServer fd
  | .udpClient => .udpClient fd
  | .tcpClient => .tcpClient fd
  | .tcpServer => .tcpServer fd
  | .listener => .accepted fd k

/-- An event: data on a descriptor, or a connection on a listener. -/
def Expected (kind : Nat → Kind) : Op → Prop
  | .connect fd => kind fd = .listener
  | .data fd => kind fd ≠ .listener
  | .deliver => False

def Op.fd : Op → Nat
  | .connect fd => fd
  | .data fd => fd
  | .deliver => 0

/-- The entries expected after a sequence of events (newest first); `c` counts the connections of each listener so far. -/
def entriesOf (kind : Nat → Kind) (c : Nat → Nat) : List Op → List Entry → List Entry
  | [], acc => acc
  | .connect fd :: es, acc => entriesOf kind (upd c fd (c fd + 1)) es (.accepted fd (c fd) :: acc)
  | .data fd :: es, acc => entriesOf kind c es ((kind fd).entry fd 0 :: acc)
  | .deliver :: es, acc => entriesOf kind c es acc

/-- Each event followed by a run of the handler. -/
def prompt : List Op → List Op
  | [] => []
  | e :: es => e :: .deliver :: prompt es

end EventsSpec

open EventsSpec

/-- **C78, one signal.** For a descriptor of any kind the library makes, the handler pushes exactly one entry, into the queue of that kind,
and calls the notificator once; a listener with nothing waiting gives no entry. -/
theorem C78_dispatch (s : Events.St) {fd : Nat} (k : Kind) (hk : s.socks fd = k.sock) (hp : s.pending = some fd) :
    (Events.step s .deliver).pending = none ∧ (Events.step s .deliver).notified = s.notified + 1 ∧
    (Events.step s .deliver).entries =
      (if k = .listener ∧ s.made fd ≤ s.taken fd then s.entries else k.entry fd (s.taken fd) :: s.entries) ∧
    (Events.step s .deliver).taken =
      (if k = .listener ∧ s.taken fd < s.made fd then upd s.taken fd (s.taken fd + 1) else s.taken) := by
  cases k <;> simp only [Kind.sock] at hk <;>
    simp [step, hp, signalHandler, hk, handleTcp, handleUdp, notify, Kind.entry]
  split
  · rename_i h
    have : ¬ s.made fd ≤ s.taken fd := by omega
    simp [hp, this]
  · rename_i h
    have : s.made fd ≤ s.taken fd := by omega
    simp [hp, this]

/-- **C78, other descriptors.** A descriptor that is not a socket the library knows gives neither an entry nor a notification. -/
theorem C78_unknown (s : Events.St) {fd : Nat} (hk : (s.socks fd).stream = none) (hp : s.pending = some fd) :
    Events.step s .deliver = { s with pending := none } := by
  simp [step, hp, signalHandler, hk]

namespace EventsLemmas

theorem taken_le_made (s : Events.St) (os : List Events.Op) (h : ∀ fd, s.taken fd ≤ s.made fd) (fd : Nat) :
    (Events.run s os).taken fd ≤ (Events.run s os).made fd := by
  induction os generalizing s with
  | nil => exact h fd
  | cons o os ih =>
    refine ih (step s o) ?_
    intro x
    cases o with
    | connect c =>
      have : (step s (.connect c)).taken = s.taken ∧ (step s (.connect c)).made = upd s.made c (s.made c + 1) := by
        simp only [step, raise]; split <;> exact ⟨rfl, rfl⟩
      rw [this.1, this.2]
      by_cases hx : x = c
      · subst hx; rw [upd_self]; exact Nat.le_succ_of_le (h x)
      · rw [upd_ne _ _ hx]; exact h x
    | data c =>
      have : (step s (.data c)).taken = s.taken ∧ (step s (.data c)).made = s.made := by
        simp only [step, raise]; split <;> exact ⟨rfl, rfl⟩
      rw [this.1, this.2]; exact h x
    | deliver =>
      simp only [step]
      split
      · rename_i c hc
        have hm : ∀ t : Events.St, (∀ y, t.taken y ≤ t.made y) → ∀ y, (signalHandler t c).taken y ≤ (signalHandler t c).made y := by
          intro t ht y
          simp only [signalHandler]
          split
          · simp only [notify, handleTcp]
            split
            · exact ht y
            · split
              · exact ht y
              · split
                · rename_i h3
                  by_cases hy : y = c
                  · subst hy; simp only [upd_self]; omega
                  · simp only [upd_ne _ _ hy]; exact ht y
                · exact ht y
          · simp only [notify, handleUdp]
            split <;> exact ht y
          · exact ht y
        refine hm { s with pending := none } ?_ x
        exact h
      · exact h x

end EventsLemmas

/-- **C78, what holds.** If the handler runs after every event before the next one happens, then whatever the events: the queues receive exactly
one entry per event, in order, of the kind of its descriptor — every connection once, numbered in order — no signal is left waiting and every
connection made was taken. -/
theorem C78_delivery_partial (kind : Nat → Kind) (es : List Events.Op) (he : ∀ e ∈ es, Expected kind e) :
    (Events.run (Events.init fun fd => (kind fd).sock) (prompt es)).entries = entriesOf kind (fun _ => 0) es [] ∧
    (Events.run (Events.init fun fd => (kind fd).sock) (prompt es)).pending = none ∧
    (Events.run (Events.init fun fd => (kind fd).sock) (prompt es)).taken =
      (Events.run (Events.init fun fd => (kind fd).sock) (prompt es)).made := by
  suffices H : ∀ (s : Events.St), s.socks = (fun fd => (kind fd).sock) → s.pending = none → s.taken = s.made →
      (Events.run s (prompt es)).entries = entriesOf kind s.made es s.entries ∧ (Events.run s (prompt es)).pending = none ∧
      (Events.run s (prompt es)).taken = (Events.run s (prompt es)).made from H _ rfl rfl rfl
  induction es with
  | nil => intro s _ h2 h3; exact ⟨rfl, h2, h3⟩
  | cons e es ih =>
    intro s h1 h2 h3
    have ih := ih (fun x hx => he x (List.mem_cons_of_mem _ hx))
    have hee := he e List.mem_cons_self
    cases e with
    | deliver => exact hee.elim
    | connect fd =>
      have hk : kind fd = .listener := hee
      have hs : step (step s (.connect fd)) .deliver =
          { s with made := upd s.made fd (s.made fd + 1), taken := upd s.made fd (s.made fd + 1),
                   entries := .accepted fd (s.made fd) :: s.entries, notified := s.notified + 1 } := by
        simp [step, raise, h2, signalHandler, h1, hk, Kind.sock, handleTcp, notify, h3]
      have := ih (step (step s (.connect fd)) .deliver) (by rw [hs]; exact h1) (by rw [hs]; exact h2) (by rw [hs])
      simp only [prompt, run, entriesOf]
      refine ⟨this.1.trans ?_, this.2⟩
      rw [hs]
    | data fd =>
      have hk : kind fd ≠ .listener := hee
      have hs : step (step s (.data fd)) .deliver =
          { s with entries := (kind fd).entry fd 0 :: s.entries, notified := s.notified + 1 } := by
        cases hkk : kind fd <;> first | exact absurd hkk hk | skip
        all_goals simp [step, raise, h2, signalHandler, h1, hkk, Kind.sock, handleTcp, handleUdp, notify, Kind.entry]
      have := ih (step (step s (.data fd)) .deliver) (by rw [hs]; exact h1) (by rw [hs]; exact h2) (by rw [hs]; exact h3)
      simp only [prompt, run, entriesOf]
      refine ⟨this.1.trans ?_, this.2⟩
      rw [hs]

/-- **C78 fails: events are lost.** Data arriving on any descriptor while a signal is waiting — also one for a different descriptor — leaves no
trace at all: the state is the same as if it had not arrived. -/
theorem C78_data_lost (s : Events.St) (h : s.pending ≠ none) (fd : Nat) : Events.step s (.data fd) = s := by
  obtain ⟨x, hx⟩ := Option.ne_none_iff_exists'.mp h
  simp [step, raise, hx]

/-- **C78 fails: connections are left waiting.** Of `n + 1` connections to a listener before its signal is handled, one is accepted; the other
`n` stay, with no signal waiting, during any number of runs of the handler and of events on other descriptors. -/
theorem C78_connections_starve (s : Events.St) {fd : Nat} (hk : s.socks fd = Kind.sock .listener) (hp : s.pending = none)
    (ht : s.taken fd = s.made fd) (n : Nat) (os : List Events.Op)
    (ho : ∀ o ∈ os, o ≠ .connect fd ∧ o ≠ .data fd) :
    let s' := Events.run s (List.replicate (n + 1) (.connect fd) ++ .deliver :: os)
    s'.made fd = s.made fd + (n + 1) ∧ s'.taken fd = s.taken fd + 1 := by
  have hrun : ∀ (s : Events.St) (a b : List Events.Op), run s (a ++ b) = run (run s a) b := by
    intro s a b
    induction a generalizing s with
    | nil => rfl
    | cons x xs ih => exact ih _
  -- the connections
  have hc : ∀ n, run s (List.replicate (n + 1) (.connect fd)) =
      { s with made := upd s.made fd (s.made fd + (n + 1)), pending := some fd } := by
    intro n
    induction n with
    | zero => simp [run, step, raise, hp]
    | succ n ih =>
      have : List.replicate (n + 1 + 1) (Op.connect fd) = List.replicate (n + 1) (Op.connect fd) ++ [Op.connect fd] := by
        rw [← List.replicate_succ']
      rw [this, hrun, ih]
      simp only [run, step, raise, upd_self, Events.St.mk.injEq, true_and, and_true]
      funext x
      by_cases hx : x = fd
      · subst hx; simp only [upd_self]; omega
      · simp only [upd_ne _ _ hx]
  -- afterwards nobody touches the listener
  have hafter : ∀ (os : List Events.Op), (∀ o ∈ os, o ≠ .connect fd ∧ o ≠ .data fd) → ∀ t : Events.St, t.pending ≠ some fd →
      (run t os).made fd = t.made fd ∧ (run t os).taken fd = t.taken fd := by
    intro os
    induction os with
    | nil => intro _ t _; exact ⟨rfl, rfl⟩
    | cons o os ih =>
      intro ho t htp
      have ho1 := ho o List.mem_cons_self
      have key : (step t o).pending ≠ some fd ∧ (step t o).made fd = t.made fd ∧ (step t o).taken fd = t.taken fd := by
        cases o with
        | connect c =>
          have hcne : c ≠ fd := fun e => ho1.1 (by rw [e])
          simp only [step, raise]
          split
          · exact ⟨by simpa using hcne, by simp [upd_ne _ _ (Ne.symm hcne)], rfl⟩
          · exact ⟨htp, by simp [upd_ne _ _ (Ne.symm hcne)], rfl⟩
        | data c =>
          have hcne : c ≠ fd := fun e => ho1.2 (by rw [e])
          simp only [step, raise]
          split
          · exact ⟨by simpa using hcne, rfl, rfl⟩
          · exact ⟨htp, rfl, rfl⟩
        | deliver =>
          simp only [step]
          split
          · rename_i c hcp
            have hcne : fd ≠ c := by intro e; subst e; exact htp hcp
            simp only [signalHandler]
            split
            · simp only [notify, handleTcp]
              split
              · exact ⟨by simp, rfl, rfl⟩
              · split
                · exact ⟨by simp, rfl, rfl⟩
                · split
                  · exact ⟨by simp, rfl, upd_ne _ _ hcne⟩
                  · exact ⟨by simp, rfl, rfl⟩
            · simp only [notify, handleUdp]
              split <;> exact ⟨by simp, rfl, rfl⟩
            · exact ⟨by simp, rfl, rfl⟩
          · exact ⟨htp, rfl, rfl⟩
      have := ih (fun x hx => ho x (List.mem_cons_of_mem _ hx)) (step t o) key.1
      exact ⟨this.1.trans key.2.1, this.2.trans key.2.2⟩
  intro s'
  have hs' : s' = run (step (run s (List.replicate (n + 1) (.connect fd))) .deliver) os := by
    show run s (List.replicate (n + 1) (.connect fd) ++ .deliver :: os) = _
    rw [hrun]; rfl
  have hd : step (run s (List.replicate (n + 1) (.connect fd))) .deliver =
      { s with made := upd s.made fd (s.made fd + (n + 1)), pending := none, taken := upd s.taken fd (s.taken fd + 1),
               entries := .accepted fd (s.taken fd) :: s.entries, notified := s.notified + 1 } := by
    rw [hc]
    simp only [Kind.sock] at hk
    have hlt : s.made fd < s.made fd + (n + 1) := by omega
    simp [step, signalHandler, hk, handleTcp, notify, upd_self, ht]
  have h := hafter os ho (step (run s (List.replicate (n + 1) (.connect fd))) .deliver) (by rw [hd]; simp)
  rw [hs']
  refine ⟨h.1.trans ?_, h.2.trans ?_⟩ <;> rw [hd] <;> simp [upd_self]

/-- **C78, never too much.** In every history no connection is accepted that was not made. -/
theorem C78_no_invented (socks : Nat → Sock) (os : List Events.Op) (fd : Nat) :
    (Events.run (Events.init socks) os).taken fd ≤ (Events.run (Events.init socks) os).made fd :=
  EventsLemmas.taken_le_made _ os (fun _ => Nat.le_refl 0) fd

/-! ## C79: registering and removing leaves the descriptor as it was -/

/-- All calls succeed. -/
def allOk : Fcntl := ⟨none, none, none⟩

/-- **C79, exactly.** Registering a descriptor and removing it again restores it exactly if it was neither asynchronous nor non-blocking and had
no owner and no signal. -/
theorem C79_restore_exact (pid : Nat) (d : Desc) :
    (Events.disable 0 allOk (Events.enable 0 pid allOk d).2) = (0, { d with async := false, nonblock := false, owner := 0, sig := 0 }) ∧
    ((Events.disable 0 allOk (Events.enable 0 pid allOk d).2).2 = d ↔ d.async = false ∧ d.nonblock = false ∧ d.owner = 0 ∧ d.sig = 0) := by
  refine ⟨rfl, ?_⟩
  constructor
  · intro h
    have h : ({ d with async := false, nonblock := false, owner := 0, sig := 0 } : Desc) = d := h
    rw [← h]
    exact ⟨rfl, rfl, rfl, rfl⟩
  · rintro ⟨h1, h2, h3, h4⟩
    cases d
    simp_all [Events.disable, Events.enable, enableSignal, disableSignal, configure, allOk]

/-- **C79 fails.** A descriptor its user made non-blocking is blocking after it was registered and removed. -/
theorem C79_nonblock_lost (pid : Nat) (d : Desc) (h : d.nonblock = true) :
    (Events.disable 0 allOk (Events.enable 0 pid allOk d).2).2 ≠ d := by
  intro e
  have := ((C79_restore_exact pid d).2.mp e).2.1
  rw [h] at this
  cases this

/-- **C79 fails.** When registering fails at its second or third step the error is reported, but the descriptor stays non-blocking and
asynchronous. -/
theorem C79_failed_enable_not_undone (pid : Nat) (k : Fcntl) (d : Desc) (h : k.setfl = none) :
    (Events.enable 0 pid k d).2.nonblock = true ∧ (Events.enable 0 pid k d).2.async = true := by
  simp only [Events.enable, enableSignal, configure, h]
  cases k.setown <;> cases k.setsig <;> exact ⟨rfl, rfl⟩

/-- **C79, status.** `enable` and `disable` succeed exactly if the catcher works and all three calls do; a catcher that does not work leaves
the descriptor alone. -/
theorem C79_status {k : Fcntl} (hk : ∀ c, (k.setfl = some c ∨ k.setown = some c ∨ k.setsig = some c) → 0 < c) (status : Int) (pid : Nat)
    (d : Desc) :
    ((Events.enable status pid k d).1 = 0 ↔ status = 0 ∧ k.setfl = none ∧ k.setown = none ∧ k.setsig = none) ∧
    ((Events.disable status k d).1 = 0 ↔ status = 0 ∧ k.setfl = none ∧ k.setown = none ∧ k.setsig = none) ∧
    (status ≠ 0 → (Events.enable status pid k d).2 = d ∧ (Events.disable status k d).2 = d) := by
  obtain ⟨a, b, c⟩ := k
  by_cases hs : status = 0
  · subst hs
    have conf : ∀ fl own sg, (configure ⟨a, b, c⟩ fl own sg d).1 = 0 ↔ a = none ∧ b = none ∧ c = none := by
      intro fl own sg
      cases a with
      | some x => have := hk x (.inl rfl); simp [configure]; omega
      | none =>
        cases b with
        | some x => have := hk x (.inr (.inl rfl)); simp [configure]; omega
        | none =>
          cases c with
          | some x => have := hk x (.inr (.inr rfl)); simp [configure]; omega
          | none => simp [configure]
    refine ⟨?_, ?_, fun h => absurd rfl h⟩
    · simp [Events.enable, enableSignal, conf]
    · simp [Events.disable, disableSignal, conf]
  · simp [Events.enable, Events.disable, hs]

/-- **C79, which status.** With a working catcher, `enable` and `disable` return the negated code of the first of the three calls that fails, and
what the calls before it changed stays changed. -/
theorem C79_status_exact (k : Fcntl) (pid : Nat) (d : Desc) :
    (Events.enable 0 pid k d = match k.setfl, k.setown, k.setsig with
      | some c, _, _ => (-(c : Int), d)
      | none, some c, _ => (-(c : Int), ⟨true, true, d.others, d.owner, d.sig⟩)
      | none, none, some c => (-(c : Int), ⟨true, true, d.others, pid, d.sig⟩)
      | none, none, none => (0, ⟨true, true, d.others, pid, SIGPOLL⟩)) ∧
    (Events.disable 0 k d = match k.setfl, k.setown, k.setsig with
      | some c, _, _ => (-(c : Int), d)
      | none, some c, _ => (-(c : Int), ⟨false, false, d.others, d.owner, d.sig⟩)
      | none, none, some c => (-(c : Int), ⟨false, false, d.others, 0, d.sig⟩)
      | none, none, none => (0, ⟨false, false, d.others, 0, 0⟩)) := by
  obtain ⟨a, b, c⟩ := k
  cases a <;> cases b <;> cases c <;> exact ⟨rfl, rfl⟩

example : (Events.enable 0 7 ⟨none, some 3, none⟩ ⟨false, false, 5, 1, 2⟩) = (-3, ⟨true, true, 5, 1, 2⟩) := by decide

/-- **C79, what registering does.** -/
theorem C79_enable (pid : Nat) (d : Desc) :
    Events.enable 0 pid allOk d = (0, ⟨true, true, d.others, pid, SIGPOLL⟩) := rfl

/-! ## Concrete cases -/

def kinds : Nat → Kind
  | 3 => .listener
  | 4 => .udpServer
  | 5 => .tcpServer
  | 6 => .udpClient
  | _ => .tcpClient

example : (Events.run (Events.init fun fd => (kinds fd).sock) (prompt [.connect 3, .data 4, .data 6, .connect 3, .data 5, .data 9])).entries =
    [.tcpClient 9, .tcpServer 5, .accepted 3 1, .udpClient 6, .udpServer 4, .accepted 3 0] := by decide
/-- data on 4 while the signal of 3 waits is lost, and one of two connections stays -/
example : (Events.run (Events.init fun fd => (kinds fd).sock) [.connect 3, .data 4, .connect 3, .deliver, .deliver]).entries = [.accepted 3 0] ∧
    (Events.run (Events.init fun fd => (kinds fd).sock) [.connect 3, .data 4, .connect 3, .deliver, .deliver]).made 3 = 2 := by decide
example : (Events.enable 0 100 ⟨none, some 13, none⟩ ⟨false, false, 2, 0, 0⟩) = (-13, ⟨true, true, 2, 0, 0⟩) := by decide

/-! The theorems at the sockets above. -/

def EventsSpec.exState : Events.St := Events.run (Events.init fun fd => (kinds fd).sock) [.connect 3, .deliver, .connect 3]

example := C78_dispatch exState (fd := 3) .listener rfl rfl
example := C78_unknown { exState with socks := fun _ => ⟨none, false, false⟩ } (fd := 3) rfl rfl
example := C78_delivery_partial kinds [.connect 3, .data 4, .connect 3] (by simp [Expected, kinds])
example := C78_data_lost exState (by decide) 4
example := C78_connections_starve (Events.step exState .deliver) (fd := 3) rfl rfl rfl 4 [.data 4, .deliver] (by decide)
example := C79_nonblock_lost 7 ⟨true, true, 5, 1, 2⟩ rfl
example := C79_failed_enable_not_undone 7 ⟨none, some 3, none⟩ ⟨false, false, 5, 1, 2⟩ rfl
example := C79_status (k := ⟨none, some 3, none⟩) (by simp) 0 7 ⟨false, false, 5, 1, 2⟩

end Flame
