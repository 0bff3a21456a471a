import Verif.Win.Events

/-! # C115, C116: notifications of network events on Windows -/

namespace Flame.WinEvents
open Flame.Own (upd upd_self upd_ne)

/-- **Specification.** The kinds of sockets the library makes. -/
inductive Kind where
  | udpServer | udpClient | tcpClient | tcpServer | listener
  deriving DecidableEq, Repr

/-- Servers set `SO_REUSEADDR` (src/Os/Windows/Network/SocketFunctions.cpp 114-121, 159-166). -/
def Kind.sock : Kind → Sock
  | .udpServer => ⟨some false, true, false⟩
  | .udpClient => ⟨some false, false, false⟩
  | .tcpClient => ⟨some true, false, false⟩
  | .tcpServer => ⟨some true, true, false⟩
  | .listener => ⟨some true, true, true⟩

/-- The events the code means to ask for (EventCatcher.cpp 43-56). -/
def Kind.wanted : Kind → List Event
  | .udpServer | .udpClient | .tcpServer => [.read, .write]
  | .tcpClient => [.read, .write, .connect]
  | .listener => [.accept]

/-- The entry for an event; `k` connections were taken before. -/
def Kind.entry (fd k : Nat) : Kind → Entry
  | .udpServer => .udpServer fd
  | .udpClient => .udpClient fd
  | .tcpClient => .tcpClient fd
  | .tcpServer => .tcpServer fd
  | .listener => .accepted fd k

/-! ## C115: registering asks for the events of the socket's kind -/

/-- C115 (partial: all kinds but TCP clients): exactly the wanted events are asked for. -/
theorem C115_request_partial (k : Kind) (hk : k ≠ .tcpClient) (e : Event) : (request k.sock).has e = true ↔ e ∈ k.wanted := by
  cases k <;> first | exact absurd rfl hk | (cases e <;> decide)

example : Kind.listener ≠ .tcpClient := by decide

/-- C115 (violated): for a TCP client the end of a connection attempt is not asked for, although it is meant to be;
everything else is. -/
theorem C115_connect_violated (e : Event) :
    (request (Kind.sock .tcpClient)).has e = true ↔ e ∈ Kind.wanted .tcpClient ∧ e ≠ .connect := by
  cases e <;> decide

/-- C115 (violated): no kind of socket is told that its peer closed the connection. -/
theorem C115_close_violated (k : Kind) : (request k.sock).has .close = false := by cases k <;> rfl

/-- C115 (violated): a descriptor that is no socket known to the library is registered for every event there is. -/
theorem C115_unknown_violated (k : Sock) (hk : k.stream = none) (e : Event) : (request k).has e = true := by
  simp only [request, hk]
  cases e <;> rfl

example : (⟨none, true, false⟩ : Sock).stream = none := rfl

/-- C115: `enable` and `disable` report success exactly if the window exists and the system agreed; otherwise the
reason, −1 for a missing window. -/
theorem C115_status (window : Bool) (select : Option Nat) (hs : ∀ e, select = some e → 0 < e) :
    (enableStatus window select = 0 ↔ window = true ∧ select = none) ∧ disableStatus window select = enableStatus window select ∧
    (window = false → enableStatus window select = -1) ∧
    ∀ e, window = true → select = some e → enableStatus window select = -(e : Int) := by
  cases window with
  | false => simp [enableStatus, disableStatus]
  | true =>
    cases select with
    | none => simp [enableStatus, disableStatus]
    | some e => have := hs e rfl; simp [enableStatus, disableStatus]; omega

/-! ## C116: every event that was asked for reaches the queue of its kind -/

/-- C116: a read or write message of a descriptor pushes one entry into the queue of its kind and calls the notificator
once. -/
theorem C116_dispatch_data (s : St) {fd : Nat} (k : Kind) (hk : s.socks fd = k.sock) (hl : k ≠ .listener) {e : Event}
    (he : e = .read ∨ e = .write) :
    (action s ⟨fd, e, false⟩).entries = k.entry fd 0 :: s.entries ∧ (action s ⟨fd, e, false⟩).notified = s.notified + 1 ∧
    (action s ⟨fd, e, false⟩).queue = s.queue ∧ (action s ⟨fd, e, false⟩).taken = s.taken := by
  rcases he with rfl | rfl <;> cases k <;> first
    | exact absurd rfl hl
    | (simp only [Kind.sock] at hk; simp [action, handleUdp, handleTcp, hk, Kind.entry])

/-- C116: an accept message of a listener with a waiting connection takes the oldest one and pushes it, notifying once;
if more wait, the next message is in the queue at once. -/
theorem C116_dispatch_accept (s : St) {fd : Nat} (hk : s.socks fd = Kind.sock .listener) (hm : (s.mask fd).any (·.accept) = true)
    (hw : s.taken fd < s.made fd) :
    (action s ⟨fd, .accept, false⟩).entries = .accepted fd (s.taken fd) :: s.entries ∧
    (action s ⟨fd, .accept, false⟩).notified = s.notified + 1 ∧
    (action s ⟨fd, .accept, false⟩).taken = upd s.taken fd (s.taken fd + 1) ∧
    (action s ⟨fd, .accept, false⟩).queue =
      s.queue ++ (if s.taken fd + 1 < s.made fd then [⟨fd, .accept, false⟩] else []) := by
  simp only [Kind.sock] at hk
  by_cases h2 : s.taken fd + 1 < s.made fd
  · simp [action, handleTcp, hk, hw, postAccept, hm, h2]
  · simp [action, handleTcp, hk, hw, postAccept, hm, h2]

/-- C116 (violated): a message that carries an error is dropped: no entry, no notification. -/
theorem C116_error_violated (s : St) (m : Msg) (h : m.error = true) : action s m = s := by simp [action, h]

example : (⟨4, .read, true⟩ : Msg).error = true := rfl

/-- C116 (violated): the program is notified also when nothing was queued: for a connected or closed message of any
descriptor. -/
theorem C116_spurious_violated (s : St) (fd : Nat) {e : Event} (he : e = .connect ∨ e = .close) :
    action s ⟨fd, e, false⟩ = { s with notified := s.notified + 1 } := by
  rcases he with rfl | rfl <;> simp only [action, handleUdp, handleTcp] <;>
    (cases h : (s.socks fd).stream with
     | none => simp
     | some b => cases b <;> simp)

/-- Messages other than those the model of the system posts itself. -/
def Foreign (m : Msg) : Prop := m.event ≠ .accept ∧ m.event ≠ .read

/-- The operations considered: registering at most once, foreign messages only. -/
def Allowed (s : St) : Op → Prop
  | .enable fd => s.mask fd = none
  | .signal m => Foreign m
  | _ => True

/-- Reachable from sockets of any kinds. -/
inductive Reach (socks : Nat → Sock) : St → Prop
  | init : Reach socks (init socks)
  | step {s} (o : Op) : Reach socks s → Allowed s o → Reach socks (step s o)

/-- The connections of `fd` that were pushed, oldest first. -/
def conns (fd : Nat) (l : List Entry) : List Nat :=
  l.reverse.filterMap fun e => match e with
    | .accepted g k => if g = fd then some k else none
    | _ => none

structure Inv (socks : Nat → Sock) (s : St) : Prop where
  socks : s.socks = socks
  masks : ∀ fd m, s.mask fd = some m → m = request (s.socks fd)
  le : ∀ fd, s.taken fd ≤ s.made fd
  acc : ∀ fd, (s.socks fd).stream = some true → (s.mask fd).any (·.accept) = true → s.taken fd < s.made fd → s.accPosted fd = true
  accQ : ∀ fd, (s.socks fd).stream = some true → s.accPosted fd = true → ⟨fd, .accept, false⟩ ∈ s.queue
  accM : ∀ fd, s.mask fd = none → s.accPosted fd = false
  conns : ∀ fd, conns fd s.entries = List.range (s.taken fd)
  rd : ∀ fd, (s.socks fd).stream ≠ none → (s.mask fd).any (·.read) = true → 0 < s.unread fd → s.rdPosted fd = true
  rdQ : ∀ fd, (s.socks fd).stream ≠ none → s.rdPosted fd = true → ⟨fd, .read, false⟩ ∈ s.queue ∨ s.told fd = true

theorem conns_cons (fd : Nat) (e : Entry) (l : List Entry) :
    conns fd (e :: l) = conns fd l ++ (match e with | .accepted g k => if g = fd then [k] else [] | _ => []) := by
  unfold conns
  rw [List.reverse_cons, List.filterMap_append]
  congr 1
  cases e <;> simp
  rename_i g k
  by_cases h : g = fd <;> simp [h]

/-- Posting FD_ACCEPT makes `acc` and `accQ` true for `fd`, provided they hold elsewhere. -/
theorem inv_postAccept {socks : Nat → Sock} {s : St} {fd : Nat}
    (h1 : s.socks = socks) (h2 : ∀ fd m, s.mask fd = some m → m = request (s.socks fd)) (h3 : ∀ fd, s.taken fd ≤ s.made fd)
    (h4 : ∀ g, g ≠ fd → (s.socks g).stream = some true → (s.mask g).any (·.accept) = true → s.taken g < s.made g → s.accPosted g = true)
    (h5 : ∀ g, (s.socks g).stream = some true → s.accPosted g = true → ⟨g, .accept, false⟩ ∈ s.queue)
    (h5m : ∀ g, s.mask g = none → s.accPosted g = false)
    (h6 : ∀ g, WinEvents.conns g s.entries = List.range (s.taken g))
    (h7 : ∀ g, (s.socks g).stream ≠ none → (s.mask g).any (·.read) = true → 0 < s.unread g → s.rdPosted g = true)
    (h8 : ∀ g, (s.socks g).stream ≠ none → s.rdPosted g = true → ⟨g, .read, false⟩ ∈ s.queue ∨ s.told g = true) :
    Inv socks (postAccept s fd) := by
  unfold postAccept
  by_cases hc : (s.mask fd).any (·.accept) ∧ s.accPosted fd = false ∧ s.taken fd < s.made fd
  · rw [if_pos hc]
    refine ⟨h1, h2, h3, ?_, ?_, ?_, h6, h7, ?_⟩
    · intro g hg hm ht
      by_cases e : g = fd
      · subst e; simp
      · simp only [upd_ne _ _ e]; exact h4 g e hg hm ht
    · intro g hg hp
      by_cases e : g = fd
      · subst e; simp
      · simp only [upd_ne _ _ e] at hp
        exact List.mem_append_left _ (h5 g hg hp)
    · intro g hm
      by_cases e : g = fd
      · subst e; simp only at hm; rw [hm] at hc; simp at hc
      · simp only [upd_ne _ _ e]; exact h5m g hm
    · intro g hg hp
      rcases h8 g hg hp with h | h
      · exact .inl (List.mem_append_left _ h)
      · exact .inr h
  · rw [if_neg hc]
    refine ⟨h1, h2, h3, ?_, h5, h5m, h6, h7, h8⟩
    intro g hg hm ht
    by_cases e : g = fd
    · subst e
      cases hp : s.accPosted g with
      | true => rfl
      | false => exact absurd ⟨hm, hp, ht⟩ hc
    · exact h4 g e hg hm ht

theorem inv_postRead {socks : Nat → Sock} {s : St} {fd : Nat}
    (h1 : s.socks = socks) (h2 : ∀ fd m, s.mask fd = some m → m = request (s.socks fd)) (h3 : ∀ fd, s.taken fd ≤ s.made fd)
    (h4 : ∀ g, (s.socks g).stream = some true → (s.mask g).any (·.accept) = true → s.taken g < s.made g → s.accPosted g = true)
    (h5 : ∀ g, (s.socks g).stream = some true → s.accPosted g = true → ⟨g, .accept, false⟩ ∈ s.queue)
    (h5m : ∀ g, s.mask g = none → s.accPosted g = false)
    (h6 : ∀ g, WinEvents.conns g s.entries = List.range (s.taken g))
    (h7 : ∀ g, g ≠ fd → (s.socks g).stream ≠ none → (s.mask g).any (·.read) = true → 0 < s.unread g → s.rdPosted g = true)
    (h8 : ∀ g, (s.socks g).stream ≠ none → s.rdPosted g = true → ⟨g, .read, false⟩ ∈ s.queue ∨ s.told g = true) :
    Inv socks (postRead s fd) := by
  unfold postRead
  by_cases hc : (s.mask fd).any (·.read) ∧ s.rdPosted fd = false ∧ 0 < s.unread fd
  · rw [if_pos hc]
    refine ⟨h1, h2, h3, h4, ?_, h5m, h6, ?_, ?_⟩
    · intro g hg hp
      exact List.mem_append_left _ (h5 g hg hp)
    · intro g hg hm ht
      by_cases e : g = fd
      · subst e; simp
      · simp only [upd_ne _ _ e]; exact h7 g e hg hm ht
    · intro g hg hp
      by_cases e : g = fd
      · subst e; exact .inl (by simp)
      · simp only [upd_ne _ _ e] at hp
        rcases h8 g hg hp with h | h
        · exact .inl (List.mem_append_left _ h)
        · exact .inr h
  · rw [if_neg hc]
    refine ⟨h1, h2, h3, h4, h5, h5m, h6, ?_, h8⟩
    intro g hg hm ht
    by_cases e : g = fd
    · subst e
      cases hp : s.rdPosted g with
      | true => rfl
      | false => exact absurd ⟨hm, hp, ht⟩ hc
    · exact h7 g e hg hm ht

theorem inv_init (socks : Nat → Sock) : Inv socks (WinEvents.init socks) := by
  refine ⟨rfl, ?_, ?_, ?_, ?_, ?_, ?_, ?_, ?_⟩ <;> intros <;> simp_all [WinEvents.init, WinEvents.conns]

theorem inv_action {socks : Nat → Sock} {s : St} {m : Msg} {q : List Msg} (h : Inv socks s) (hq : s.queue = m :: q)
    (he : m.error = true → Foreign m) : Inv socks (action { s with queue := q } m) := by
  obtain ⟨fd, ev, err⟩ := m
  have mem : ∀ x, x ∈ s.queue → x ≠ ⟨fd, ev, err⟩ → x ∈ q := by
    intro x hx hn
    rw [hq] at hx
    rcases List.mem_cons.mp hx with e | e
    · exact absurd e hn
    · exact e
  -- nothing but the queue changes, and the message is neither an accept nor a read message that matters
  have plain : (∀ g, (s.socks g).stream = some true → s.accPosted g = true → (⟨g, .accept, false⟩ : Msg) ≠ ⟨fd, ev, err⟩) →
      (∀ g, (s.socks g).stream ≠ none → s.rdPosted g = true → s.told g = false → (⟨g, .read, false⟩ : Msg) ≠ ⟨fd, ev, err⟩) →
      Inv socks { s with queue := q } := by
    intro ha hr
    refine ⟨h.socks, h.masks, h.le, h.acc, ?_, h.accM, h.conns, h.rd, ?_⟩
    · intro g hg hp; exact mem _ (h.accQ g hg hp) (ha g hg hp)
    · intro g hg hp
      rcases h.rdQ g hg hp with e | e
      · cases ht : s.told g with
        | true => exact .inr rfl
        | false => exact .inl (mem _ e (hr g hg hp ht))
      · exact .inr e
  have note : ∀ {t : St}, Inv socks t → Inv socks { t with notified := t.notified + 1 } :=
    fun ht => ⟨ht.socks, ht.masks, ht.le, ht.acc, ht.accQ, ht.accM, ht.conns, ht.rd, ht.rdQ⟩
  -- a read or write message of a known descriptor: one entry that is no connection
  have push : ∀ (en : Entry), (∀ g k, en ≠ .accepted g k) → (ev = .read ∨ ev = .write) →
      Inv socks { s with queue := q, entries := en :: s.entries, told := upd s.told fd true } := by
    intro en hen hev
    refine ⟨h.socks, h.masks, h.le, h.acc, ?_, h.accM, ?_, h.rd, ?_⟩
    · intro g hg hp
      refine mem _ (h.accQ g hg hp) ?_
      rcases hev with rfl | rfl <;> simp
    · intro g
      simp only
      rw [conns_cons, h.conns]
      cases en <;> simp
      exact absurd rfl (hen _ _)
    · intro g hg hp
      by_cases e : g = fd
      · subst e; exact .inr (by simp)
      · rcases h.rdQ g hg hp with h' | h'
        · exact .inl (mem _ h' (by simp [e]))
        · exact .inr (by simp only [upd_ne _ _ e]; exact h')
  cases err with
  | true =>
    simp only [action, if_true]
    obtain ⟨h1, h2⟩ := he rfl
    refine plain ?_ ?_ <;> intros <;> simp
  | false =>
    simp only [action, Bool.false_eq_true, if_false]
    cases hst : (s.socks fd).stream with
    | none =>
      refine note (t := { s with queue := q }) (plain ?_ ?_)
      · intro g hg hp e
        injection e with e; subst e; rw [hst] at hg; cases hg
      · intro g hg hp ht e
        injection e with e; subst e; exact hg hst
    | some b =>
      cases b with
      | false =>
        refine note ?_
        cases ev with
        | read =>
          simp only [handleUdp]
          split <;> exact push _ (by intros; simp) (.inl rfl)
        | write =>
          simp only [handleUdp]
          split <;> exact push _ (by intros; simp) (.inr rfl)
        | accept =>
          refine plain ?_ ?_
          · intro g hg hp e
            injection e with e; subst e; rw [hst] at hg; cases hg
          · intros; simp
        | connect => refine plain ?_ ?_ <;> intros <;> simp
        | close => refine plain ?_ ?_ <;> intros <;> simp
      | true =>
        refine note ?_
        cases ev with
        | read =>
          simp only [handleTcp]
          split <;> exact push _ (by intros; simp) (.inl rfl)
        | write =>
          simp only [handleTcp]
          split <;> exact push _ (by intros; simp) (.inr rfl)
        | connect => refine plain ?_ ?_ <;> intros <;> simp
        | close => refine plain ?_ ?_ <;> intros <;> simp
        | accept =>
          simp only [handleTcp]
          have hmono : ∀ g, g ≠ fd → ⟨g, Event.accept, false⟩ ∈ s.queue → ⟨g, Event.accept, false⟩ ∈ q := by
            intro g hg hm; exact mem _ hm (by simp [hg])
          by_cases hw : s.taken fd < s.made fd
          · rw [if_pos hw]
            refine inv_postAccept h.socks h.masks ?_ ?_ ?_ ?_ ?_ h.rd ?_
            · intro g
              by_cases e : g = fd
              · subst e; simp; omega
              · simp only [upd_ne _ _ e]; exact h.le g
            · intro g hg hs hm ht
              simp only [upd_ne _ _ hg] at ht ⊢
              exact h.acc g hs hm ht
            · intro g hs hp
              by_cases e : g = fd
              · subst e; simp at hp
              · simp only [upd_ne _ _ e] at hp
                exact hmono g e (h.accQ g hs hp)
            · intro g hm
              by_cases e : g = fd
              · subst e; simp
              · simp only [upd_ne _ _ e]; exact h.accM g hm
            · intro g
              simp only
              rw [conns_cons, h.conns]
              by_cases e : g = fd
              · subst e; simp [List.range_succ]
              · have : fd ≠ g := fun x => e x.symm
                simp [upd_ne _ _ e, this]
            · intro g hg hp
              rcases h.rdQ g hg hp with h' | h'
              · exact .inl (mem _ h' (by simp))
              · exact .inr h'
          · rw [if_neg hw]
            refine ⟨h.socks, h.masks, h.le, ?_, ?_, ?_, h.conns, h.rd, ?_⟩
            · intro g hs hm ht
              by_cases e : g = fd
              · subst e; exact absurd ht hw
              · simp only [upd_ne _ _ e]; exact h.acc g hs hm ht
            · intro g hs hp
              by_cases e : g = fd
              · subst e; simp at hp
              · simp only [upd_ne _ _ e] at hp
                exact hmono g e (h.accQ g hs hp)
            · intro g hm
              by_cases e : g = fd
              · subst e; simp
              · simp only [upd_ne _ _ e]; exact h.accM g hm
            · intro g hg hp
              rcases h.rdQ g hg hp with h' | h'
              · exact .inl (mem _ h' (by simp))
              · exact .inr h'

/-- Messages with an error are foreign ones. -/
def Errs (s : St) : Prop := ∀ m ∈ s.queue, m.error = true → Foreign m

theorem errs_post (s : St) (fd : Nat) (h : Errs s) : Errs (postAccept s fd) ∧ Errs (postRead s fd) := by
  constructor
  · unfold postAccept
    split
    · intro m hm he
      rcases List.mem_append.mp hm with e | e
      · exact h m e he
      · simp at e; subst e; cases he
    · exact h
  · unfold postRead
    split
    · intro m hm he
      rcases List.mem_append.mp hm with e | e
      · exact h m e he
      · simp at e; subst e; cases he
    · exact h

theorem errs_action (s : St) (m : Msg) (h : Errs s) : Errs (action s m) := by
  unfold action
  split
  · exact h
  · simp only
    split
    · unfold handleUdp; split <;> (try split) <;> exact h
    · unfold handleTcp
      split
      · split
        · exact (errs_post { s with
            entries := .accepted m.fd (s.taken m.fd) :: s.entries, taken := upd s.taken m.fd (s.taken m.fd + 1),
            accPosted := upd s.accPosted m.fd false } _ h).1
        · exact h
      · split <;> exact h
      · split <;> exact h
      · exact h
    · exact h

theorem errs_step {s : St} {o : Op} (h : Errs s) (ho : Allowed s o) : Errs (step s o) := by
  cases o with
  | enable fd => exact (errs_post _ fd (errs_post { s with mask := upd s.mask fd (some (request (s.socks fd))) } fd h).1).2
  | connect fd => exact (errs_post { s with made := upd s.made fd (s.made fd + 1) } fd h).1
  | data fd => exact (errs_post { s with unread := upd s.unread fd (s.unread fd + 1) } fd h).2
  | recv fd =>
    exact (errs_post ⟨s.socks, s.mask, s.made, s.taken, upd s.unread fd (s.unread fd - 1), s.accPosted,
      upd s.rdPosted fd false, s.queue, s.entries, s.notified, upd s.told fd false⟩ fd h).2
  | signal m =>
    intro x hx he
    rcases List.mem_append.mp hx with e | e
    · exact h x e he
    · simp at e; subst e; exact ho
  | dispatch =>
    simp only [step]
    split
    · rename_i m q hq
      refine errs_action _ _ ?_
      intro x hx he
      exact h x (by rw [hq]; exact List.mem_cons_of_mem _ hx) he
    · exact h

theorem inv_step {socks : Nat → Sock} {s : St} {o : Op} (h : Inv socks s) (he : Errs s) (ho : Allowed s o) :
    Inv socks (step s o) := by
  cases o with
  | enable fd =>
    simp only [Allowed] at ho
    have hmask : ∀ g m, upd s.mask fd (some (request (s.socks fd))) g = some m → m = request (s.socks g) := by
      intro g m hm
      by_cases e : g = fd
      · subst e; simp at hm; exact hm.symm
      · rw [upd_ne _ _ e] at hm; exact h.masks g m hm
    have hnone : ∀ g, upd s.mask fd (some (request (s.socks fd))) g = none → g ≠ fd ∧ s.mask g = none := by
      intro g hm
      by_cases e : g = fd
      · subst e; simp at hm
      · rw [upd_ne _ _ e] at hm; exact ⟨e, hm⟩
    have hrd : ∀ g, g ≠ fd → (s.socks g).stream ≠ none →
        (upd s.mask fd (some (request (s.socks fd))) g).any (·.read) = true → 0 < s.unread g → s.rdPosted g = true := by
      intro g hg hs hm hu
      rw [upd_ne _ _ hg] at hm; exact h.rd g hs hm hu
    simp only [step]
    by_cases hc : (upd s.mask fd (some (request (s.socks fd))) fd).any (·.accept) = true ∧ s.accPosted fd = false ∧ s.taken fd < s.made fd
    · rw [show postAccept { s with mask := upd s.mask fd (some (request (s.socks fd))) } fd =
        ⟨s.socks, upd s.mask fd (some (request (s.socks fd))), s.made, s.taken, s.unread, upd s.accPosted fd true, s.rdPosted,
          s.queue ++ [⟨fd, .accept, false⟩], s.entries, s.notified, s.told⟩ from if_pos hc]
      refine inv_postRead h.socks hmask h.le ?_ ?_ ?_ h.conns hrd ?_
      · intro g hs hm ht
        by_cases e : g = fd
        · subst e; simp
        · simp only [upd_ne _ _ e] at hm ⊢; exact h.acc g hs hm ht
      · intro g hs hp
        by_cases e : g = fd
        · subst e; simp
        · simp only [upd_ne _ _ e] at hp; exact List.mem_append_left _ (h.accQ g hs hp)
      · intro g hm
        obtain ⟨e, hm⟩ := hnone g hm
        simp only [upd_ne _ _ e]; exact h.accM g hm
      · intro g hs hp
        rcases h.rdQ g hs hp with h' | h'
        · exact .inl (List.mem_append_left _ h')
        · exact .inr h'
    · rw [show postAccept { s with mask := upd s.mask fd (some (request (s.socks fd))) } fd =
        { s with mask := upd s.mask fd (some (request (s.socks fd))) } from if_neg hc]
      refine inv_postRead h.socks hmask h.le ?_ h.accQ ?_ h.conns hrd h.rdQ
      · intro g hs hm ht
        by_cases e : g = fd
        · subst e
          cases hp : s.accPosted g with
          | true => rfl
          | false => exact absurd ⟨hm, hp, ht⟩ hc
        · simp only [upd_ne _ _ e] at hm; exact h.acc g hs hm ht
      · intro g hm
        obtain ⟨-, hm⟩ := hnone g hm
        exact h.accM g hm
  | connect fd =>
    refine inv_postAccept h.socks h.masks ?_ ?_ h.accQ h.accM h.conns h.rd h.rdQ
    · intro g
      by_cases e : g = fd
      · subst e; simp; have := h.le g; omega
      · simp only [upd_ne _ _ e]; exact h.le g
    · intro g hg hs hm ht
      simp only [upd_ne _ _ hg] at ht
      exact h.acc g hs hm ht
  | data fd =>
    refine inv_postRead h.socks h.masks h.le h.acc h.accQ h.accM h.conns ?_ h.rdQ
    intro g hg hs hm hu
    simp only [upd_ne _ _ hg] at hu
    exact h.rd g hs hm hu
  | recv fd =>
    refine inv_postRead h.socks h.masks h.le h.acc h.accQ h.accM h.conns ?_ ?_
    · intro g hg hs hm hu
      simp only [upd_ne _ _ hg] at hu ⊢
      exact h.rd g hs hm hu
    · intro g hs hp
      by_cases e : g = fd
      · subst e; simp at hp
      · simp only [upd_ne _ _ e] at hp ⊢
        exact h.rdQ g hs hp
  | signal m =>
    refine ⟨h.socks, h.masks, h.le, h.acc, ?_, h.accM, h.conns, h.rd, ?_⟩
    · intro g hs hp; exact List.mem_append_left _ (h.accQ g hs hp)
    · intro g hs hp
      rcases h.rdQ g hs hp with h' | h'
      · exact .inl (List.mem_append_left _ h')
      · exact .inr h'
  | dispatch =>
    simp only [step]
    cases hq : s.queue with
    | nil => exact h
    | cons m q => exact inv_action h hq (he m (by rw [hq]; simp))

theorem Reach.inv {socks : Nat → Sock} {s : St} (h : Reach socks s) : Inv socks s ∧ Errs s := by
  induction h with
  | init => exact ⟨inv_init socks, by intro m hm; simp [WinEvents.init] at hm⟩
  | step o _ ho ih => exact ⟨inv_step ih.1 ih.2 ho, errs_step ih.2 ho⟩

/-- C116: connections are pushed once each, in the order in which they were made, and none is invented. -/
theorem C116_connections {socks : Nat → Sock} {s : St} (h : Reach socks s) (fd : Nat) :
    conns fd s.entries = List.range (s.taken fd) ∧ s.taken fd ≤ s.made fd :=
  ⟨h.inv.1.conns fd, h.inv.1.le fd⟩

/-- C116: when the thread has no message left, every connection of a registered listener has been pushed. -/
theorem C116_all_connections {socks : Nat → Sock} {s : St} (h : Reach socks s) (hq : s.queue = []) {fd : Nat}
    (hk : socks fd = Kind.sock .listener) (hm : s.mask fd ≠ none) :
    conns fd s.entries = List.range (s.made fd) := by
  obtain ⟨hi, -⟩ := h.inv
  obtain ⟨m, hm⟩ := Option.ne_none_iff_exists'.mp hm
  have hsock : s.socks fd = Kind.sock .listener := by rw [hi.socks, hk]
  have hreq := hi.masks fd m hm
  have hany : (s.mask fd).any (·.accept) = true := by rw [hm, hreq, hsock]; rfl
  have hst : (s.socks fd).stream = some true := by rw [hsock]; rfl
  rw [hi.conns]
  by_cases ht : s.taken fd < s.made fd
  · have := hi.accQ fd hst (hi.acc fd hst hany ht)
    rw [hq] at this; cases this
  · have := hi.le fd
    rw [show s.taken fd = s.made fd by omega]

/-- C116: when the thread has no message left, every registered descriptor (other than a listener) on which data waits
has an entry in the queue of its kind that is newer than the last receive. -/
theorem C116_all_data {socks : Nat → Sock} {s : St} (h : Reach socks s) (hq : s.queue = []) {fd : Nat} {k : Kind}
    (hk : socks fd = k.sock) (hl : k ≠ .listener) (hm : s.mask fd ≠ none) (hu : 0 < s.unread fd) : s.told fd = true := by
  obtain ⟨hi, -⟩ := h.inv
  obtain ⟨m, hm⟩ := Option.ne_none_iff_exists'.mp hm
  have hsock : s.socks fd = k.sock := by rw [hi.socks, hk]
  have hany : (s.mask fd).any (·.read) = true := by
    rw [hm, hi.masks fd m hm, hsock]
    cases k <;> first | rfl | exact absurd rfl hl
  have hst : (s.socks fd).stream ≠ none := by rw [hsock]; cases k <;> simp [Kind.sock]
  rcases hi.rdQ fd hst (hi.rd fd hst hany hu) with e | e
  · rw [hq] at e; cases e
  · exact e

/-! ### Progress: a waiting connection is pushed after finitely many messages -/

def dispatches (n : Nat) : List Op := List.replicate n .dispatch

theorem run_append (s : St) (a b : List Op) : run s (a ++ b) = run (run s a) b := by
  induction a generalizing s with
  | nil => rfl
  | cons o a ih => exact ih (step s o)

theorem reach_run {socks : Nat → Sock} {s : St} (h : Reach socks s) (n : Nat) : Reach socks (run s (dispatches n)) := by
  induction n generalizing s with
  | zero => exact h
  | succ n ih => exact ih (.step .dispatch h trivial)

/-- Handling a message only appends to the queue, changes no mask, no made count, and lowers no taken count. -/
theorem action_frame (s : St) (m : Msg) :
    (∃ r, (action s m).queue = s.queue ++ r) ∧ (action s m).mask = s.mask ∧ (action s m).made = s.made ∧
    (∀ g, s.taken g ≤ (action s m).taken g) ∧ (action s m).socks = s.socks := by
  have post : ∀ (t : St) (fd : Nat), (∃ r, (postAccept t fd).queue = t.queue ++ r) ∧ (postAccept t fd).mask = t.mask ∧
      (postAccept t fd).made = t.made ∧ (postAccept t fd).taken = t.taken ∧ (postAccept t fd).socks = t.socks := by
    intro t fd
    unfold postAccept
    split
    · exact ⟨⟨_, rfl⟩, rfl, rfl, rfl, rfl⟩
    · exact ⟨⟨[], (List.append_nil _).symm⟩, rfl, rfl, rfl, rfl⟩
  have same : (∃ r, s.queue = s.queue ++ r) ∧ s.mask = s.mask ∧ s.made = s.made ∧ (∀ g, s.taken g ≤ s.taken g) ∧ s.socks = s.socks :=
    ⟨⟨[], (List.append_nil _).symm⟩, rfl, rfl, fun _ => Nat.le_refl _, rfl⟩
  unfold action
  split
  · exact same
  · simp only
    split
    · unfold handleUdp; split <;> (try split) <;> exact same
    · unfold handleTcp
      split
      · split
        · obtain ⟨p1, p2, p3, p4, p5⟩ := post { s with
            entries := .accepted m.fd (s.taken m.fd) :: s.entries, taken := upd s.taken m.fd (s.taken m.fd + 1),
            accPosted := upd s.accPosted m.fd false } m.fd
          refine ⟨p1, p2, p3, fun g => ?_, p5⟩
          rw [p4]
          by_cases e : g = m.fd
          · subst e; simp
          · simp only [upd_ne _ _ e]; exact Nat.le_refl _
        · exact same
      · split <;> exact same
      · split <;> exact same
      · exact same
    · exact same

theorem dispatch_frame (s : St) :
    (∃ r, (step s .dispatch).queue = s.queue.tail ++ r) ∧ (step s .dispatch).mask = s.mask ∧ (step s .dispatch).made = s.made ∧
    (∀ g, s.taken g ≤ (step s .dispatch).taken g) ∧ (step s .dispatch).socks = s.socks := by
  simp only [step]
  cases hq : s.queue with
  | nil => exact ⟨⟨[], by simp [hq]⟩, rfl, rfl, fun _ => Nat.le_refl _, rfl⟩
  | cons m q => exact action_frame { s with queue := q } m

theorem run_frame (s : St) (n : Nat) :
    (∃ r, (run s (dispatches n)).queue = s.queue.drop n ++ r) ∧ (run s (dispatches n)).mask = s.mask ∧
    (run s (dispatches n)).made = s.made ∧ (∀ g, s.taken g ≤ (run s (dispatches n)).taken g) ∧
    (run s (dispatches n)).socks = s.socks := by
  induction n generalizing s with
  | zero => exact ⟨⟨[], by simp [dispatches, run]⟩, rfl, rfl, fun _ => Nat.le_refl _, rfl⟩
  | succ n ih =>
    obtain ⟨⟨r, hr⟩, h2, h3, h4, h5⟩ := dispatch_frame s
    obtain ⟨⟨r', hr'⟩, i2, i3, i4, i5⟩ := ih (step s .dispatch)
    refine ⟨?_, i2.trans h2, i3.trans h3, fun g => Nat.le_trans (h4 g) (i4 g), i5.trans h5⟩
    show ∃ r, (run (step s .dispatch) (dispatches n)).queue = _
    rw [hr', hr, List.drop_append]
    exact ⟨r.drop (n - s.queue.tail.length) ++ r', by simp [List.drop_tail]⟩

/-- One more connection is taken within finitely many messages. -/
theorem one_more {socks : Nat → Sock} {s : St} (h : Reach socks s) {fd : Nat} (hk : socks fd = Kind.sock .listener)
    (hm : s.mask fd ≠ none) (hw : s.taken fd < s.made fd) : ∃ n, s.taken fd < (run s (dispatches n)).taken fd := by
  obtain ⟨hi, -⟩ := h.inv
  obtain ⟨m, hm'⟩ := Option.ne_none_iff_exists'.mp hm
  have hsock : s.socks fd = Kind.sock .listener := by rw [hi.socks, hk]
  have hany : (s.mask fd).any (·.accept) = true := by rw [hm', hi.masks fd m hm', hsock]; rfl
  have hst : (s.socks fd).stream = some true := by rw [hsock]; rfl
  have hin := hi.accQ fd hst (hi.acc fd hst hany hw)
  obtain ⟨p, hp, hget⟩ := List.getElem_of_mem hin
  obtain ⟨⟨r, hr⟩, h2, h3, h4, h5⟩ := run_frame s p
  -- after `p` messages the one for `fd` is the oldest
  have hhead : (run s (dispatches p)).queue = ⟨fd, .accept, false⟩ :: (s.queue.drop (p + 1) ++ r) := by
    rw [hr, List.drop_eq_getElem_cons hp, hget]; rfl
  by_cases hdone : s.taken fd < (run s (dispatches p)).taken fd
  · exact ⟨p, hdone⟩
  · refine ⟨p + 1, ?_⟩
    have heq : (run s (dispatches p)).taken fd = s.taken fd := by have := h4 fd; omega
    have hrep : dispatches (p + 1) = dispatches p ++ [.dispatch] := List.replicate_succ'
    rw [hrep, run_append]
    simp only [run, step, hhead]
    have hk' : (run s (dispatches p)).socks fd = Kind.sock .listener := by rw [h5]; exact hsock
    have := (C116_dispatch_accept { run s (dispatches p) with queue := s.queue.drop (p + 1) ++ r } (fd := fd) hk'
      (by simp only [h2]; exact hany) (by simp only [heq, h3]; exact hw)).2.2.1
    rw [this]
    simp [heq]

/-- C116: every connection made to a registered listener is pushed after the thread has handled finitely many further
messages, whatever else is in its queue: none is left waiting. -/
theorem C116_no_starvation {socks : Nat → Sock} {s : St} (h : Reach socks s) {fd : Nat} (hk : socks fd = Kind.sock .listener)
    (hm : s.mask fd ≠ none) : ∃ n, conns fd (run s (dispatches n)).entries = List.range (s.made fd) := by
  have key : ∀ (d : Nat) (s : St), Reach socks s → s.mask fd ≠ none → s.made fd - s.taken fd ≤ d →
      ∃ n, (run s (dispatches n)).taken fd = s.made fd := by
    intro d
    induction d with
    | zero =>
      intro s h hm hd
      refine ⟨0, ?_⟩
      have := (C116_connections h fd).2
      simp only [dispatches, List.replicate, run]
      omega
    | succ d ih =>
      intro s h hm hd
      by_cases hw : s.taken fd < s.made fd
      · obtain ⟨n, hn⟩ := one_more h hk hm hw
        obtain ⟨-, h2, h3, -, -⟩ := run_frame s n
        obtain ⟨n', hn'⟩ := ih (run s (dispatches n)) (reach_run h n) (by rw [h2]; exact hm) (by rw [h3]; omega)
        refine ⟨n + n', ?_⟩
        have : dispatches (n + n') = dispatches n ++ dispatches n' := (List.replicate_append_replicate ..).symm
        rw [this, run_append, hn', h3]
      · refine ⟨0, ?_⟩
        have := (C116_connections h fd).2
        simp only [dispatches, List.replicate, run]
        omega
  obtain ⟨n, hn⟩ := key _ s h hm (Nat.le_refl _)
  exact ⟨n, by rw [(C116_connections (reach_run h n) fd).1, hn]⟩

/-- Sockets for the examples: 3 listens, 4 is a UDP server. -/
def someSocks : Nat → Sock
  | 3 => Kind.sock .listener
  | 4 => Kind.sock .udpServer
  | _ => Kind.sock .tcpClient

/-- Three connections and data, only partly handled. -/
def someState : St := run (init someSocks) [.enable 3, .enable 4, .connect 3, .data 4, .connect 3, .connect 3, .dispatch]

theorem someState_reach : Reach someSocks someState := by
  refine .step .dispatch (.step (.connect 3) (.step (.connect 3) (.step (.data 4) (.step (.connect 3) (.step (.enable 4)
    (.step (.enable 3) .init ?_) ?_) ?_) ?_) ?_) ?_) ?_ <;> first | trivial | rfl

example : someState.mask 3 ≠ none ∧ someState.taken 3 = 1 ∧ someState.made 3 = 3 ∧ someState.queue.length = 2 := by decide

/-- Everything handled: the hypotheses of `C116_all_connections` and `C116_all_data`. -/
example : (run someState (dispatches 3)).queue = [] ∧ 0 < (run someState (dispatches 3)).unread 4 ∧
    Reach someSocks (run someState (dispatches 3)) := ⟨by decide, by decide, reach_run someState_reach 3⟩

/-! ### The end -/

/-- C116: the thread's loop ends exactly when it is told to finish, gets WM_QUIT, or GetMessage fails. -/
theorem C116_loop_ends (l : List Got) (n : Nat) : (∃ k, loop l n = some k) ↔ ∃ g ∈ l, g ≠ .socket := by
  induction l generalizing n with
  | nil => simp [loop]
  | cons g l ih =>
    cases g with
    | socket => simp [loop, ih]
    | finish => simp [loop]
    | quit => simp [loop]
    | fail => simp [loop]

/-- C116: with a window, the destructor ends the thread, after the messages that were posted before; each of those is
dispatched. -/
theorem C116_shutdown (l : List Got) (h : ∀ g ∈ l, g = .socket) (n : Nat) : loop (l ++ posted true) n = some (n + l.length) := by
  induction l generalizing n with
  | nil => rfl
  | cons g l ih =>
    have := h g (by simp)
    subst this
    simp only [List.cons_append, loop]
    rw [ih (fun g hg => h g (by simp [hg]))]
    simp only [List.length_cons]
    congr 1
    omega

example : ∀ g ∈ [Got.socket, Got.socket], g = .socket := by decide

/-- C116: everything that arrived before the loop ends was dispatched, and nothing after it; the WM_QUIT message itself is
dispatched too. -/
theorem C116_dispatched (l : List Got) (h : ∀ g ∈ l, g = .socket) (rest : List Got) (n : Nat) :
    loop (l ++ .quit :: rest) n = some (n + l.length + 1) ∧ loop (l ++ .fail :: rest) n = some (n + l.length) ∧
      loop (l ++ .finish :: rest) n = some (n + l.length) := by
  induction l generalizing n with
  | nil => simp [loop]
  | cons g l ih =>
    obtain rfl : g = .socket := h g (by simp)
    have := ih (fun g hg => h g (by simp [hg])) (n + 1)
    simp only [List.cons_append, loop, List.length_cons]
    refine ⟨this.1.trans ?_, this.2.1.trans ?_, this.2.2.trans ?_⟩ <;> (congr 1; omega)

example : loop [.socket, .socket, .quit, .socket] 0 = some 3 := by decide

/-- C116 (violated): if the window could not be created, the destructor does not end the thread (and the thread object's
destructor then waits for it for ever). -/
theorem C116_shutdown_violated (n : Nat) : loop (posted false) n = none := rfl

namespace Flame.WinEvents
open Flame.Own (upd upd_self upd_ne)
example := C115_status true (some 10038) (by rintro _ ⟨⟩; decide)
example := C116_dispatch_data (init someSocks) (fd := 4) .udpServer rfl (by decide) (e := .read) (.inl rfl)
example := C116_dispatch_accept someState (fd := 3) rfl (by decide) (by decide)
example := C116_spurious_violated someState 4 (e := .close) (.inr rfl)
example := C116_connections someState_reach 3
example := C116_all_connections (reach_run someState_reach 3) (by decide) (fd := 3) rfl (by decide)
example := C116_all_data (reach_run someState_reach 3) (by decide) (fd := 4) (k := .udpServer) rfl (by decide) (by decide) (by decide)
example := C116_no_starvation someState_reach (fd := 3) rfl (by decide)
end Flame.WinEvents

end Flame.WinEvents
