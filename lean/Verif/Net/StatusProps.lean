import Verif.Net.Status

/-!
# Properties of the status of network objects (C133)

Specification: what the system answered, in order.  A call either establishes or ends the connection (`control`) or moves bytes (`data`).
-/

namespace Flame.NetStatus

inductive Call where
  | control (r : Int)
  | data (r : Int)
  deriving DecidableEq, Repr

def Call.res : Call → Int
  | .control r => r
  | .data r => r

/-- The system refused the call. -/
def Call.failed (c : Call) : Prop := c.res < 0

/-- The calls an operation makes when the object holds a descriptor (`held`) or not. -/
def calls (held : Bool) : Op → List Call
  | .connect r => [.control r]
  | .disconnect r => [.control r]
  | .reconnect rd _ rc => if held then (if rd < 0 then [.control rd] else [.control rd, .control rc]) else [.control rc]
  | .send r => [.data r]
  | .receive r => [.data r]
  | .pending _ => []

/-- All calls of a history. -/
def history (o : Obj) : List Op → List Call
  | [] => []
  | x :: xs => calls (decide (o.fd ≠ -1)) x ++ history (tcpStep o x).1 xs

/-- The last call of the history that failed has not been followed by establishing or ending the connection successfully. -/
def Unrecovered (h : List Call) : Prop :=
  ∃ a c b, h = a ++ c :: b ∧ c.failed ∧ ∀ d ∈ b, ∀ r, d = .control r → r < 0

/-- Results the functions of namespace `socket` give: failures are negated `errno` numbers, which are below 4096. -/
def Sane (r : Int) : Prop := -4096 < r

def Call.sane (c : Call) : Prop := Sane c.res

theorem toStatus_sane {r : Int} (h : Sane r) (hn : r < 0) : toStatus r = r := by
  unfold Sane at h
  unfold toStatus
  rw [Int.bmod_eq_of_le] <;> omega

/-- What one call does to the status. -/
def note (s : Int) : Call → Int
  | .control r => r
  | .data r => if r < 0 then r else s

theorem tcp_status {o : Obj} {ops : List Op} (hs : ∀ c ∈ history o ops, c.sane) :
    (tcpRun o ops).status = (history o ops).foldl note o.status := by
  induction ops generalizing o with
  | nil => rfl
  | cons x xs ih =>
    have h2 : ∀ c ∈ history (tcpStep o x).1 xs, c.sane := fun c hc => hs c (by simp [history, hc])
    have h1 : ∀ c ∈ calls (decide (o.fd ≠ -1)) x, c.sane := fun c hc => hs c (by simp only [history]; exact List.mem_append_left _ hc)
    have e : tcpRun o (x :: xs) = tcpRun (tcpStep o x).1 xs := rfl
    rw [e, ih h2]
    simp only [history, List.foldl_append]
    congr 1
    cases x with
    | connect r => rfl
    | disconnect r =>
      simp only [tcpStep, disconnect, calls, List.foldl, note]
      split <;> rfl
    | reconnect rd fd rc =>
      by_cases hf : o.fd = -1
      · simp [tcpStep, reconnect, hf, calls, connect, note]
      · by_cases hd : rd < 0
        · simp [tcpStep, reconnect, hf, calls, note, disconnect, hd]
        · simp [tcpStep, reconnect, hf, calls, note, disconnect, hd, connect]
    | send r =>
      simp only [tcpStep, transfer, calls, List.foldl, note]
      have := h1 (.data r) (by simp [calls])
      by_cases hr : r < 0
      · simp only [hr, if_true]; exact toStatus_sane this hr
      · simp [hr]
    | receive r =>
      simp only [tcpStep, transfer, calls, List.foldl, note]
      have := h1 (.data r) (by simp [calls])
      by_cases hr : r < 0
      · simp only [hr, if_true]; exact toStatus_sane this hr
      · simp [hr]
    | pending r => rfl

theorem note_unrecovered (h : List Call) (s : Int) (hs : 0 ≤ s) : h.foldl note s < 0 ↔ Unrecovered h := by
  suffices H : ∀ (n : Nat) (h : List Call), h.length = n → (h.foldl note s < 0 ↔ Unrecovered h) from H _ h rfl
  intro n
  induction n with
  | zero =>
    intro h e
    have : h = [] := List.length_eq_zero_iff.mp e
    subst this
    refine ⟨fun h => absurd h (by simp only [List.foldl]; omega), ?_⟩
    rintro ⟨a, c, b, e, -⟩
    cases a <;> simp at e
  | succ n ih =>
    intro h e
    obtain ⟨i, l, rfl⟩ : ∃ i l, h = i ++ [l] := by
      rcases List.eq_nil_or_concat h with rfl | ⟨i, l, rfl⟩
      · simp at e
      · exact ⟨i, l, by simp⟩
    have ihi := ih i (by simp at e; exact e)
    rw [List.foldl_append]
    simp only [List.foldl]
    constructor
    · intro hn
      by_cases hl : l.res < 0
      · exact ⟨i, l, [], rfl, hl, by simp⟩
      · cases l with
        | control r => simp only [note] at hn; exact absurd hn hl
        | data r =>
          have hl' : ¬ r < 0 := hl
          simp only [note, hl', if_false] at hn
          obtain ⟨a, c, b, e1, e2, e3⟩ := ihi.mp hn
          refine ⟨a, c, b ++ [.data r], by simp [e1], e2, ?_⟩
          intro d hd r' e'
          rcases List.mem_append.mp hd with hd | hd
          · exact e3 d hd r' e'
          · simp only [List.mem_singleton] at hd; rw [hd] at e'; cases e'
    · rintro ⟨a, c, b, e1, e2, e3⟩
      rcases List.eq_nil_or_concat b with rfl | ⟨b', l', rfl⟩
      · obtain ⟨-, e4⟩ := List.append_inj' e1 rfl
        simp only [List.cons.injEq, and_true] at e4
        subst e4
        cases l with
        | control r => exact e2
        | data r =>
          have e2' : r < 0 := e2
          simp only [note, e2', if_true]
      · have e1' : i ++ [l] = (a ++ c :: b') ++ [l'] := by rw [e1]; simp
        obtain ⟨e5, e4⟩ := List.append_inj' e1' rfl
        simp only [List.cons.injEq, and_true] at e4
        subst e4
        have hu : i.foldl note s < 0 := ihi.mpr ⟨a, c, b', e5, e2, fun d hd => e3 d (by simp [hd])⟩
        cases l with
        | control r => exact e3 (.control r) (by simp) r rfl
        | data r =>
          simp only [note]
          split
          · assumption
          · exact hu

end Flame.NetStatus

namespace Flame
open NetStatus

/-- **C133, TCP clients, exactly.** After any history the status of a client is negative exactly if some call of the system failed and the
connection has not been established or ended successfully since. -/
theorem C133_tcp_exact (fd : Int) (ops : List Op) (hs : ∀ c ∈ history (ofSocket fd) ops, c.sane) :
    (tcpRun (ofSocket fd) ops).status < 0 ↔ Unrecovered (history (ofSocket fd) ops) := by
  rw [tcp_status hs]
  refine note_unrecovered _ _ ?_
  simp only [ofSocket]
  rw [if_pos (by simp [valid])]
  exact Int.le_refl _

example : (tcpRun (ofSocket 5) [.connect 0, .send (-32), .receive 3]).status = -32 := by decide

/-- **C133, the part that holds: what calls return.** Connecting returns the status; moving bytes returns what the system said, failures as
-1 with the reason kept in the status; asking for the number of waiting bytes changes nothing. -/
theorem C133_returns_partial (o : Obj) (r : Int) (h : Sane r) :
    tcpStep o (.connect r) = (⟨o.fd, r⟩, r) ∧
    (0 ≤ r → tcpStep o (.send r) = (o, r) ∧ tcpStep o (.receive r) = (o, r)) ∧
    (r < 0 → tcpStep o (.send r) = (⟨o.fd, r⟩, -1) ∧ tcpStep o (.receive r) = (⟨o.fd, r⟩, -1)) ∧
    tcpStep o (.pending r) = (o, r) := by
  refine ⟨rfl, ?_, ?_, rfl⟩
  · intro h0
    have : ¬ r < 0 := by omega
    simp [tcpStep, transfer, this]
  · intro h0
    simp [tcpStep, transfer, h0, toStatus_sane h h0]

example : tcpStep ⟨5, 0⟩ (.send (-32)) = (⟨5, -32⟩, -1) := by decide

/-- **C133 fails: a status stays.** After a failed transfer any number of successful transfers leaves the status at the failure. -/
theorem C133_sticky_violated (o : Obj) (r : Int) (h : Sane r) (hn : r < 0) (rs : List Int) (hrs : ∀ x ∈ rs, 0 ≤ x) :
    (tcpRun o (.send r :: rs.map .send)).status = r ∧
    ∀ x, 0 ≤ x → (tcpStep (tcpRun o (.send r :: rs.map .send)) (.send x)).2 = x := by
  have key : ∀ (rs : List Int) (o : Obj), (∀ x ∈ rs, 0 ≤ x) → tcpRun o (rs.map .send) = o := by
    intro rs
    induction rs with
    | nil => intro o _; rfl
    | cons x xs ih =>
      intro o hx
      have : ¬ x < 0 := by have := hx x (by simp); omega
      have e : tcpRun o ((x :: xs).map .send) = tcpRun (tcpStep o (.send x)).1 (xs.map .send) := rfl
      rw [e]
      have e2 : tcpStep o (.send x) = (o, x) := by simp [tcpStep, transfer, this]
      rw [e2]
      exact ih o (fun y hy => hx y (by simp [hy]))
  have e : tcpRun o (.send r :: rs.map .send) = ⟨o.fd, r⟩ := by
    have : tcpRun o (.send r :: rs.map .send) = tcpRun (tcpStep o (.send r)).1 (rs.map .send) := rfl
    rw [this, key rs _ hrs]
    simp [tcpStep, transfer, hn, toStatus_sane h hn]
  rw [e]
  refine ⟨rfl, fun x hx => ?_⟩
  have : ¬ x < 0 := by omega
  simp [tcpStep, transfer, this]

example : (tcpRun ⟨5, 0⟩ [.send (-11), .send 7, .send 7]).status = -11 := by decide

/-- **C133, UDP clients, exactly.** The status is the last failure there ever was; success never clears it.  Each call returns what the
system said. -/
theorem C133_udp_exact (fd : Int) (rs : List Int) (hs : ∀ r ∈ rs, Sane r) :
    ((udpRun (ofSocket fd) rs).status < 0 ↔ ∃ r ∈ rs, r < 0) ∧
    (∀ a r b, rs = a ++ r :: b → r < 0 → (∀ x ∈ b, 0 ≤ x) → (udpRun (ofSocket fd) rs).status = r) ∧
    (udpRun (ofSocket fd) rs).fd = fd ∧
    ∀ o r, (udpStep o r).2 = r := by
  have gen : ∀ (rs : List Int) (o : Obj), (∀ r ∈ rs, Sane r) → 0 ≤ o.status →
      ((udpRun o rs).status < 0 → ∃ r ∈ rs, r < 0) := by
    intro rs
    induction rs with
    | nil => intro o _ h0 h1; simp only [udpRun, List.foldl] at h1; omega
    | cons x xs ih =>
      intro o h h0 h1
      by_cases hx : x < 0
      · exact ⟨x, by simp, hx⟩
      · have e : udpRun o (x :: xs) = udpRun o xs := by
          show udpRun (udpStep o x).1 xs = udpRun o xs
          simp [udpStep, hx]
        rw [e] at h1
        obtain ⟨r, a, b⟩ := ih o (fun r hr => h r (by simp [hr])) h0 h1
        exact ⟨r, by simp [a], b⟩
  have same : ∀ (b : List Int) (o : Obj), (∀ x ∈ b, 0 ≤ x) → udpRun o b = o := by
    intro b
    induction b with
    | nil => intro o _; rfl
    | cons x xs ih =>
      intro o hx
      have hx0 : ¬ x < 0 := by have := hx x (by simp); omega
      have e : udpRun o (x :: xs) = udpRun o xs := by
        show udpRun (udpStep o x).1 xs = udpRun o xs
        simp [udpStep, hx0]
      rw [e]
      exact ih o (fun y hy => hx y (by simp [hy]))
  have exact : ∀ (rs a : List Int) (r : Int) (b : List Int) (o : Obj), (∀ r ∈ rs, Sane r) → rs = a ++ r :: b → r < 0 →
      (∀ x ∈ b, 0 ≤ x) → (udpRun o rs).status = r := by
    intro rs a r b o h e hr hb
    subst e
    have e2 : udpRun o (a ++ r :: b) = udpRun (udpStep (udpRun o a) r).1 b := by
      simp [udpRun, List.foldl_append]
    rw [e2, same b _ hb]
    simp [udpStep, hr, toStatus_sane (h r (by simp)) hr]
  have keepFd : ∀ (rs : List Int) (o : Obj), (udpRun o rs).fd = o.fd := by
    intro rs
    induction rs with
    | nil => intro o; rfl
    | cons x xs ih =>
      intro o
      show (udpRun (udpStep o x).1 xs).fd = o.fd
      rw [ih]
      simp only [udpStep]
      split <;> rfl
  have h00 : ofSocket fd = ⟨fd, 0⟩ := by simp [ofSocket, valid]
  refine ⟨⟨gen rs _ hs (by rw [h00]; exact Int.le_refl _), ?_⟩, ?_, ?_, ?_⟩
  · rintro ⟨r, hr, hn⟩
    -- the last failure
    have last : ∀ (l : List Int), (∃ r ∈ l, r < 0) → ∃ a r b, l = a ++ r :: b ∧ r < 0 ∧ ∀ x ∈ b, 0 ≤ x := by
      intro l
      induction l with
      | nil => rintro ⟨r, h, -⟩; simp at h
      | cons x xs ih =>
        rintro ⟨r, h, h1⟩
        by_cases hx : ∃ r ∈ xs, r < 0
        · obtain ⟨a, r', b, e, e1, e2⟩ := ih hx
          exact ⟨x :: a, r', b, by simp [e], e1, e2⟩
        · have hall : ∀ y ∈ xs, 0 ≤ y := fun y hy => by
            have : ¬ y < 0 := fun h => hx ⟨y, hy, h⟩
            omega
          rcases List.mem_cons.mp h with rfl | h
          · exact ⟨[], r, xs, rfl, h1, hall⟩
          · exact absurd ⟨r, h, h1⟩ hx
    obtain ⟨a, r', b, e, e1, e2⟩ := last rs ⟨r, hr, hn⟩
    rw [exact rs a r' b _ hs e e1 e2]
    exact e1
  · intro a r b e hr hb
    exact exact rs a r b _ hs e hr hb
  · rw [keepFd, h00]
  · intro o r
    simp only [udpStep]
    split <;> rfl

example : (udpRun (ofSocket 3) [4, -111, 5, 6]).status = -111 := by decide

/-- **C133, accepted connections, exactly.** The status is negative exactly if accepting failed or some transfer failed since; the descriptor
stays. -/
theorem C133_accepted_exact (o : Obj) (rs : List Int) (hs : ∀ r ∈ rs, Sane r) :
    ((acceptedRun o rs).status < 0 ↔ o.status < 0 ∨ ∃ r ∈ rs, r < 0) ∧ (acceptedRun o rs).fd = o.fd := by
  induction rs generalizing o with
  | nil => simp [acceptedRun]
  | cons x xs ih =>
    have e : acceptedRun o (x :: xs) = acceptedRun (transfer o x).1 xs := rfl
    obtain ⟨h1, h2⟩ := ih (transfer o x).1 (fun r hr => hs r (by simp [hr]))
    rw [e, h1, h2]
    by_cases hx : x < 0
    · simp [transfer, hx, toStatus_sane (hs x (by simp)) hx]
    · simp [transfer, hx]

example : (acceptedRun ⟨7, 0⟩ [3, -104, 2]).status = -104 := by decide

/-- **C133, servers, exactly.** A server whose `listen` failed asks the system for nothing and hands out connections with that failure; any other
server asks, and the connection handed out has a negative status exactly if the system gave no descriptor (`errno` is positive). -/
theorem C133_accept_exact (fd r d e : Int) (he : 0 < e) :
    (r < 0 → accept (server fd r) d e = (⟨-1, r⟩, false)) ∧
    (0 ≤ r → (accept (server fd r) d e).2 = true ∧ (accept (server fd r) d e).1.fd = d ∧
      ((accept (server fd r) d e).1.status < 0 ↔ d = -1) ∧ (d = -1 → (accept (server fd r) d e).1.status = -e)) := by
  refine ⟨fun h => ?_, fun h => ?_⟩
  · simp [accept, server, h]
  · have : ¬ r < 0 := by omega
    simp only [accept, server, this, if_false, true_and]
    by_cases hd : d = -1
    · simp [hd, he]
    · simp [hd]

example : accept (server 4 (-98)) 7 0 = (⟨-1, -98⟩, false) := by decide
example : accept (server 4 0) 7 4 = (⟨7, 0⟩, true) := by decide

/-- **C133, peers of a UDP server.** `getStatus()` of a `WithClient` is the result of its last call, and it converts to `true` exactly if that
call succeeded: here a success does clear a failure. -/
theorem C133_peer_exact (r0 : Int) (rs : List Int) (r : Int) :
    peerRun r0 (rs ++ [r]) = r ∧ (peerValid (peerRun r0 (rs ++ [r])) = true ↔ 0 ≤ r) := by
  have : peerRun r0 (rs ++ [r]) = r := by simp [peerRun, List.foldl_append]
  rw [this]
  exact ⟨rfl, by simp [peerValid]⟩

example : peerValid (peerRun 3 [-11, 5]) = true := by decide

/-- **C133, the conversion to `bool`, exactly.** An object converts to `false` exactly if it has no socket and a failure is recorded. -/
theorem C133_bool_exact (o : Obj) : valid o = false ↔ o.fd = -1 ∧ o.status < 0 := by
  simp only [valid, Bool.or_eq_false_iff, bne_eq_false_iff_eq, decide_eq_false_iff_not]
  omega

/-- **C133 fails: the conversion to `bool`.** A client that was disconnected successfully has no socket and converts to `true`; a client whose
last transfer failed converts to `true` as long as it has a socket; a client for which no socket could be made converts to `true` until one of
its calls fails. -/
theorem C133_bool_violated (o : Obj) (r : Int) :
    (0 ≤ r → (tcpStep o (.disconnect r)).1.fd = -1 ∧ valid (tcpStep o (.disconnect r)).1 = true) ∧
    (r < 0 → Sane r → o.fd ≠ -1 → (tcpStep o (.send r)).1.status < 0 ∧ valid (tcpStep o (.send r)).1 = true) ∧
    (∀ rs : List Int, (∀ x ∈ rs, Sane x) → (valid (udpRun (ofSocket (-1)) rs) = true ↔ ∀ x ∈ rs, 0 ≤ x)) := by
  refine ⟨fun h => ?_, fun h hs hf => ?_, fun rs hs => ?_⟩
  · have : ¬ r < 0 := by omega
    simp [tcpStep, disconnect, this, valid, h]
  · simp only [tcpStep, transfer, h, if_true, toStatus_sane hs h, true_and]
    simp only [valid, Bool.or_eq_true, bne_iff_ne]
    exact Or.inl (fun e => hf e.symm)
  · obtain ⟨h1, -, h3, -⟩ := C133_udp_exact (-1) rs hs
    have hb := C133_bool_exact (udpRun (ofSocket (-1)) rs)
    constructor
    · intro hv x hx
      by_cases hn : x < 0
      · rw [hb.mpr ⟨h3, h1.mpr ⟨x, hx, hn⟩⟩] at hv
        cases hv
      · omega
    · intro hall
      cases hv : valid (udpRun (ofSocket (-1)) rs) with
      | true => rfl
      | false =>
        obtain ⟨x, hx, hn⟩ := h1.mp (hb.mp hv).2
        have := hall x hx
        omega

example : valid (tcpStep ⟨5, 0⟩ (.disconnect 0)).1 = true ∧ (tcpStep ⟨5, 0⟩ (.disconnect 0)).1.fd = -1 := by decide

/-- **C133, reconnecting.** If closing fails nothing else happens and the failure is returned; otherwise (or when there was nothing to close) the
object holds the new socket and the result of connecting is both returned and recorded. -/
theorem C133_reconnect (o : Obj) (rd fd rc : Int) :
    tcpStep o (.reconnect rd fd rc) = if o.fd ≠ -1 ∧ rd < 0 then (⟨o.fd, rd⟩, rd) else (⟨fd, rc⟩, rc) := by
  by_cases hf : o.fd = -1
  · simp [tcpStep, reconnect, hf, connect]
  · by_cases hd : rd < 0
    · simp [tcpStep, reconnect, hf, disconnect, hd]
    · simp [tcpStep, reconnect, hf, disconnect, hd, connect]

example : tcpStep ⟨5, -32⟩ (.reconnect 0 6 0) = (⟨6, 0⟩, 0) := by decide

end Flame
