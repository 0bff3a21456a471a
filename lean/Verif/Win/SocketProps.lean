import Verif.Win.Socket
import Verif.Net.SockAddrProps

/-! # C120: making and asking sockets on Windows -/

namespace Flame.WinSock
open Flame.Own
open BytesSpec (Byte)

/-- The library can be used: it was started before, or can be now. -/
def Usable (s : St) (a : Ans) : Prop := s.inited = true ∨ a.startup = true

/-- Everything asked of the system succeeds. -/
def AllOk (k : Kind) (s : St) (a : Ans) : Prop :=
  Usable s a ∧ a.socket = true ∧ (k = .server → a.setsockopt = true ∧ a.bind = true)

/-- The state after any history of the process. -/
def Reached (s : St) : Prop := ∃ l : List Op, s = l.foldl step start

theorem reached_induct {P : St → Prop} (h0 : P start) (hs : ∀ s o, P s → P (step s o)) {s : St} (h : Reached s) : P s := by
  obtain ⟨l, rfl⟩ := h
  have key : ∀ (l : List Op) (s₀ : St), P s₀ → P (l.foldl step s₀) := by
    intro l
    induction l with
    | nil => intro s₀ h; exact h
    | cons o l ih => intro s₀ h; exact ih _ (hs _ _ h)
  exact key l start h0

/-- Numbers in the log were given out. -/
def Fresh (s : St) : Prop := ∀ r, (.made r ∈ s.log ∨ .closed r ∈ s.log ∨ s.reuse r = true) → r < s.next

/-- What each call does to the state, in one equation per outcome. -/
theorem create_cases (k : Kind) (addr : Addr) (a : Ans) (s : St) :
    (¬ Usable s a ∧ (create k addr a s).2 = invalid ∧ (create k addr a s).1.log = s.log ∧ (create k addr a s).1.next = s.next ∧
      (create k addr a s).1.reuse = s.reuse) ∨
    (Usable s a ∧ a.socket = false ∧ (create k addr a s).2 = invalid ∧ (create k addr a s).1.log = s.log ∧ (create k addr a s).1.next = s.next ∧
      (create k addr a s).1.reuse = s.reuse) ∨
    (Usable s a ∧ a.socket = true ∧ k = .client ∧ (create k addr a s).2 = ⟨some s.next, addr⟩ ∧ (create k addr a s).1.log = .made s.next :: s.log ∧
      (create k addr a s).1.next = s.next + 1 ∧ (create k addr a s).1.reuse = s.reuse) ∨
    (Usable s a ∧ a.socket = true ∧ k = .server ∧ a.setsockopt = false ∧ (create k addr a s).2 = invalid ∧
      (create k addr a s).1.log = .closed s.next :: .made s.next :: s.log ∧ (create k addr a s).1.next = s.next + 1 ∧ (create k addr a s).1.reuse = s.reuse) ∨
    (Usable s a ∧ a.socket = true ∧ k = .server ∧ a.setsockopt = true ∧
      (create k addr a s).2 = (if a.bind then ⟨some s.next, addr⟩ else invalid) ∧ (create k addr a s).1.log = .made s.next :: s.log ∧
      (create k addr a s).1.next = s.next + 1 ∧ (create k addr a s).1.reuse = upd s.reuse s.next true) := by
  obtain ⟨inited, next, reuse, calls, log⟩ := s
  obtain ⟨a1, a2, a3, a4⟩ := a
  cases inited <;> cases a1 <;> cases a2 <;> cases k <;> cases a3 <;> cases a4 <;> simp [create, winsockInit, Usable]

theorem fresh_step {s : St} (h : Fresh s) (o : Op) : Fresh (step s o) := by
  cases o with
  | create k addr a =>
    intro r hr
    simp only [step] at hr ⊢
    rcases create_cases k addr a s with ⟨_, _, e1, e2, e3⟩ | ⟨_, _, _, e1, e2, e3⟩ | ⟨_, _, _, _, e1, e2, e3⟩ | ⟨_, _, _, _, _, e1, e2, e3⟩ | ⟨_, _, _, _, _, e1, e2, e3⟩
    all_goals
      rw [e1, e3] at hr; rw [e2]
      have := h r
      (try simp only [upd, List.mem_cons, Ev.made.injEq, Ev.closed.injEq, reduceCtorEq, false_or] at hr this)
      first
        | exact this hr
        | (by_cases hn : r = s.next
           · omega
           · simp [hn] at hr
             have := this hr
             omega)
  | destroy x e =>
    intro r hr
    simp only [step, destroy] at hr ⊢
    cases hx : x.desc with
    | none => rw [hx] at hr; simp at hr ⊢; exact h r hr
    | some q =>
      rw [hx] at hr
      simp only at hr ⊢
      by_cases hl : Live q s.log
      · simp only [hl, if_true, List.mem_cons, reduceCtorEq, false_or, Ev.closed.injEq] at hr ⊢
        rcases hr with hr | (hr | hr) | hr
        · exact h r (.inl hr)
        · subst hr; exact h r (.inl hl.1)
        · exact h r (.inr (.inl hr))
        · exact h r (.inr (.inr hr))
      · simp [hl] at hr ⊢; exact h r hr

theorem reached_fresh {s : St} (h : Reached s) : Fresh s :=
  reached_induct (P := Fresh) (by simp [Fresh, start]) (fun _ o h => fresh_step h o) h

/-- C120: a socket is returned exactly if every call to the system succeeded; it is then a new one with the address it was made for;
otherwise the invalid socket is returned. -/
theorem C120_create_exact (k : Kind) (addr : Addr) (a : Ans) (s : St) :
    (AllOk k s a → (create k addr a s).2 = ⟨some s.next, addr⟩) ∧ (¬ AllOk k s a → (create k addr a s).2 = ⟨none, zero⟩) := by
  unfold AllOk
  rcases create_cases k addr a s with ⟨h1, e, _⟩ | ⟨h1, h2, e, _⟩ | ⟨h1, h2, h3, e, _⟩ | ⟨h1, h2, h3, h4, e, _⟩ | ⟨h1, h2, h3, h4, e, _⟩
  · exact ⟨fun h => absurd h.1 h1, fun _ => e⟩
  · exact ⟨fun h => (by rw [h2] at h; cases h.2.1), fun _ => e⟩
  · subst h3; exact ⟨fun _ => e, fun h => absurd ⟨h1, h2, fun hk => (nomatch hk)⟩ h⟩
  · subst h3; exact ⟨fun h => (by have := (h.2.2 rfl).1; rw [h4] at this; cases this), fun _ => e⟩
  · subst h3
    cases hb : a.bind with
    | true => rw [hb] at e; exact ⟨fun _ => e, fun h => absurd ⟨h1, h2, fun _ => ⟨h4, rfl⟩⟩ h⟩
    | false => rw [hb] at e; exact ⟨fun h => (by have := (h.2.2 rfl).2; cases this), fun _ => e⟩

example : AllOk .server start ⟨true, true, true, true⟩ ∧ ¬ AllOk .server start ⟨true, true, true, false⟩ := by
  simp [AllOk, Usable]

/-- C120 (violated): when a server's address cannot be bound, the new socket stays open and nobody knows its descriptor. -/
theorem C120_bind_violated {s : St} (hs : Reached s) (addr : Addr) {a : Ans} (hu : Usable s a) (h1 : a.socket = true) (h2 : a.setsockopt = true)
    (h3 : a.bind = false) :
    (create .server addr a s).2.desc = none ∧ Live s.next (create .server addr a s).1.log ∧ ¬ Live s.next s.log := by
  have hf := reached_fresh hs
  have hn : .closed s.next ∉ s.log := fun h => absurd (hf _ (.inr (.inl h))) (Nat.lt_irrefl _)
  rcases create_cases .server addr a s with ⟨g1, _⟩ | ⟨_, g, _⟩ | ⟨_, _, g, _⟩ | ⟨_, _, _, g, _⟩ | ⟨_, _, _, _, e, el, _⟩
  · exact absurd hu g1
  · rw [h1] at g; cases g
  · cases g
  · rw [h2] at g; cases g
  · rw [h3] at e
    rw [e, el]
    exact ⟨rfl, ⟨by simp, by simp [hn]⟩, fun h => absurd (hf _ (.inl h.1)) (Nat.lt_irrefl _)⟩

example : Reached start ∧ Usable start ⟨true, true, true, false⟩ := ⟨⟨[], rfl⟩, .inr rfl⟩

/-- C120 (partial: not the failure above): after a creation exactly the socket returned is open in addition to those open before. -/
theorem C120_open_partial {s : St} (hs : Reached s) (k : Kind) (addr : Addr) {a : Ans}
    (hb : k = .client ∨ a.bind = true ∨ a.setsockopt = false) (r : Nat) :
    Live r (create k addr a s).1.log ↔ Live r s.log ∨ (create k addr a s).2.desc = some r := by
  have hf := reached_fresh hs
  have hn : .closed s.next ∉ s.log := fun h => absurd (hf _ (.inr (.inl h))) (Nat.lt_irrefl _)
  have hm : .made s.next ∉ s.log := fun h => absurd (hf _ (.inl h)) (Nat.lt_irrefl _)
  have grow : ∀ l : List Ev, l = .made s.next :: s.log → (Live r l ↔ Live r s.log ∨ s.next = r) := by
    intro l hl; subst hl
    simp only [Live, List.mem_cons, Ev.made.injEq, reduceCtorEq, false_or]
    by_cases he : r = s.next
    · subst he; simp [hn]
    · simp [he, Ne.symm he]
  rcases create_cases k addr a s with ⟨_, e, el, _⟩ | ⟨_, _, e, el, _⟩ | ⟨_, _, _, e, el, _⟩ | ⟨_, _, _, _, e, el, _⟩ | ⟨_, _, h3, h4, e, el, _⟩
  · rw [e, el]; simp [invalid]
  · rw [e, el]; simp [invalid]
  · rw [e, grow _ el]; simp
  · rw [e, el]
    simp only [Live, List.mem_cons, Ev.made.injEq, Ev.closed.injEq, reduceCtorEq, false_or, invalid, or_false]
    by_cases he : r = s.next
    · subst he; simp [hm]
    · simp [he]
  · have hb' : a.bind = true := by
      rcases hb with hb | hb | hb
      · rw [h3] at hb; cases hb
      · exact hb
      · rw [h4] at hb; cases hb
    rw [hb'] at e
    rw [e, grow _ el]; simp

example : Reached (step start (.create .server (serverAddr 80) ⟨true, true, true, true⟩)) :=
  ⟨[.create .server (serverAddr 80) ⟨true, true, true, true⟩], rfl⟩

/-- C120: destroying an open socket closes it and leaves the invalid descriptor; doing it again fails and closes nothing. -/
theorem C120_destroy (s : St) (addr : Addr) {r : Nat} (hl : Live r s.log) {e : Nat} :
    ∃ s', destroy e ⟨some r, addr⟩ s = (s', ⟨none, addr⟩, 0) ∧ s'.log = .closed r :: s.log ∧
      ∃ s'', destroy e ⟨none, addr⟩ s' = (s'', ⟨none, addr⟩, -(e : Int)) ∧ s''.log = .closedNothing :: s'.log :=
  ⟨{ s with log := .closed r :: s.log }, by simp [destroy, hl], rfl, _, rfl, rfl⟩

example : Live 0 (create .client zero ⟨true, true, true, true⟩ start).1.log := by decide

/-- C120: destroying through a descriptor whose socket was already closed (another copy of the socket did it) closes whatever
has that number by now; if nothing has, it fails with the system's error and leaves the descriptor. -/
theorem C120_destroy_stale (s : St) (addr : Addr) {r : Nat} (hl : ¬ Live r s.log) (e : Nat) :
    (destroy e ⟨some r, addr⟩ s).2 = (⟨some r, addr⟩, -(e : Int)) ∧ (destroy e ⟨some r, addr⟩ s).1.log = .closedForeign :: s.log := by
  simp [destroy, hl]

example : ¬ Live 0 (destroy 10038 ⟨some 0, zero⟩ (create .client zero ⟨true, true, true, true⟩ start).1).1.log := by decide

/-- C120: a server whose system calls succeed is bound to AF_INET, every interface and its port in network byte order. -/
theorem C120_server {s : St} {a : Ans} (ha : AllOk .server s a) {port : Nat} (hp : port < 65536) :
    (create .server (serverAddr port) a s).2 = ⟨some s.next, ⟨2, ⟨[port / 256, port % 256], [0, 0, 0, 0]⟩⟩⟩ := by
  rw [(C120_create_exact .server (serverAddr port) a s).1 ha, serverAddr, C73_server]
  have : ((port : Int) % 65536).toNat = port := by omega
  rw [this]; rfl

example : AllOk .server start ⟨true, true, true, true⟩ := by simp [AllOk, Usable, start]

/-! ## The Winsock library -/

/-- Spec: every socket was asked for after a successful start (the list is newest first). -/
def StartedBefore : List Call → Prop
  | [] => True
  | .socket :: l => .startup true ∈ l ∧ StartedBefore l
  | .startup _ :: l => StartedBefore l

/-- C120: over every history the library is started successfully at most once, and sockets are only asked for afterwards. -/
theorem C120_startup {s : St} (h : Reached s) :
    s.calls.count (.startup true) ≤ 1 ∧ StartedBefore s.calls ∧ (s.inited = true ↔ .startup true ∈ s.calls) := by
  refine reached_induct (P := fun s => s.calls.count (.startup true) ≤ 1 ∧ StartedBefore s.calls ∧ (s.inited = true ↔ .startup true ∈ s.calls))
    (by simp [start, StartedBefore]) ?_ h
  intro s o hi
  cases o with
  | destroy x e =>
    have : (step s (.destroy x e)).calls = s.calls ∧ (step s (.destroy x e)).inited = s.inited := by
      simp only [step, destroy]
      split
      · split <;> exact ⟨rfl, rfl⟩
      · exact ⟨rfl, rfl⟩
    simp only [this]; exact hi
  | create k addr a =>
    obtain ⟨inited, next, reuse, calls, log⟩ := s
    obtain ⟨a1, a2, a3, a4⟩ := a
    obtain ⟨h1, h2, h3⟩ := hi
    simp only at h1 h2 h3
    cases inited with
    | true =>
      have hm := h3.mp rfl
      cases a2 <;> cases k <;> cases a3 <;> cases a4 <;> simp [step, create, winsockInit, StartedBefore, h1, h2, hm]
    | false =>
      have hm : Call.startup true ∉ calls := fun h => by cases h3.mpr h
      have hc : calls.count (.startup true) = 0 := List.count_eq_zero.mpr hm
      cases a1 <;> cases a2 <;> cases k <;> cases a3 <;> cases a4 <;> simp [step, create, winsockInit, StartedBefore, h2, hm, hc]

/-- C120: a creation asks the system for exactly one socket when the library can be used and for none when it cannot. -/
theorem C120_asks (k : Kind) (addr : Addr) (a : Ans) (s : St) :
    (create k addr a s).1.calls.count .socket = s.calls.count .socket + (if s.inited ∨ a.startup then 1 else 0) := by
  obtain ⟨inited, next, reuse, calls, log⟩ := s
  obtain ⟨a1, a2, a3, a4⟩ := a
  cases inited <;> cases a1 <;> cases a2 <;> cases k <;> cases a3 <;> cases a4 <;> simp [create, winsockInit]

example : (create .server (serverAddr 80) ⟨true, true, true, false⟩ start).1.calls = [.socket, .startup true] := by decide

/-- C120: a start that failed is tried again by the next creation. -/
theorem C120_startup_retried {s : St} (h : s.inited = false) (k : Kind) (addr : Addr) (a : Ans) :
    .startup a.startup ∈ (create k addr a s).1.calls := by
  obtain ⟨inited, next, reuse, calls, log⟩ := s
  obtain ⟨a1, a2, a3, a4⟩ := a
  simp only at h; subst h
  cases a1 <;> cases a2 <;> cases k <;> cases a3 <;> cases a4 <;> simp [create, winsockInit]

example : (create .client zero ⟨false, true, true, true⟩ start).1.inited = false := rfl

/-! ## The address of a client -/

/-- What is assumed of `inet_pton`: as of `inet_addr` (C73) on good texts. -/
def Pton (pton : List Byte → Option (List Nat)) : Prop := SockAddr.Inet fun t => (pton t).getD []

/-- C120 (partial: no octet is `100..109` or `200..209`, the port is `0..65535`): a client addresses the host and port it was made for. -/
theorem C120_client_partial {pton : List Byte → Option (List Nat)} (hi : Pton pton) {a b c d : Nat} (ha : a ≤ 255) (hb : b ≤ 255)
    (hc : c ≤ 255) (hd : d ≤ 255) (hgood : ∀ v ∈ [a, b, c, d], 100 ≤ v → v / 10 % 10 ≠ 0) {port : Nat} (hp : port < 65536) :
    clientAddr pton ⟨[(a : Int), b, c, d], (port : Int)⟩ = .ok ⟨2, ⟨[port / 256, port % 256], [a, b, c, d]⟩⟩ := by
  have h := C73_client_partial hi true ha hb hc hd hgood hp
  unfold SockAddr.client at h
  unfold clientAddr
  split at h
  · next chars hf =>
    rw [hf]
    simp only [Res.ok.injEq, SockAddr.Addr.mk.injEq] at h
    obtain ⟨h1, h2⟩ := h
    cases hq : pton (chars.takeWhile (· ≠ 0#8)) with
    | none => rw [hq] at h2; simp at h2
    | some ip =>
      rw [hq] at h2; simp only [Option.getD_some] at h2
      simp only [hq, h1, h2]
  · cases h
  · cases h

example : ∀ v ∈ [127, 0, 0, 1], 100 ≤ v → v / 10 % 10 ≠ 0 := by decide

/-- C120 (violated): for a text the system does not accept as an address, a client is made all the same, with a valid descriptor; it
addresses nothing: no family, host 0.0.0.0, port 0. -/
theorem C120_bad_address_violated {pton : List Byte → Option (List Nat)} {o : Ipv4.Obj} {chars : List Byte} (hf : Ipv4.format o.ip = .ok chars)
    (hp : pton (chars.takeWhile (· ≠ 0#8)) = none) {s : St} {a : Ans} (ha : AllOk .client s a) :
    ∃ addr, clientAddr pton o = .ok addr ∧ (create .client addr a s).2 = ⟨some s.next, ⟨0, ⟨[0, 0], [0, 0, 0, 0]⟩⟩⟩ := by
  refine ⟨zero, by simp only [clientAddr, hf, hp], ?_⟩
  rw [(C120_create_exact .client zero a s).1 ha]
  rfl

/-- C120 (violated): reconnecting a client of `127.0.0.1`, whatever its port, asks for nothing (the stack held zeros, the system refuses
`127.256.0.0`). -/
theorem C120_reconnect_violated {pton : List Byte → Option (List Nat)}
    (hp : pton ("127.256.0.0".toList.map fun c => BitVec.ofNat 8 c.toNat) = none) (port : List Nat) :
    reconnectAddr pton 0 0 ⟨2, ⟨port, [127, 0, 0, 1]⟩⟩ = .ok ⟨0, ⟨[0, 0], [0, 0, 0, 0]⟩⟩ := by
  have hip : (SockAddr.getIpv4 true 0 0 ⟨port, [127, 0, 0, 1]⟩).ip = [127, 256, 0, 0] := by
    simp only [SockAddr.getIpv4]; decide
  have hf : ∃ chars, Ipv4.format [127, 256, 0, 0] = .ok chars ∧ chars.takeWhile (· ≠ 0#8) = "127.256.0.0".toList.map fun c => BitVec.ofNat 8 c.toNat :=
    ⟨_, rfl, by decide⟩
  obtain ⟨chars, h1, h2⟩ := hf
  simp only [reconnectAddr, clientAddr, hip, h1, h2, hp]
  rfl

/-- Such an `inet_pton`. -/
example : (fun t : List Byte => if t.length ≤ 10 then some [127, 0, 0, 1] else none)
    ("127.256.0.0".toList.map fun c => BitVec.ofNat 8 c.toNat) = none := by decide

/-- C120, exactly: what a reconnection asks the system for, whatever the address `a.b.c.d`, the port and the two numbers the stack held.
The four numbers written to text are the two halves of the address, low byte first and read as signed, then the stack's two numbers in
the order they lie there; the port is the socket's own. -/
theorem C120_reconnect_exact (pton : List Byte → Option (List Nat)) (j2 j3 : Int) (fam : Nat) {p : Nat} (hp : p < 65536) (a b c d : Nat) :
    reconnectAddr pton j2 j3 ⟨fam, ⟨SockAddr.wirePort p, [a, b, c, d]⟩⟩ =
      clientAddr pton ⟨[Ipv4.wrap16 ((a + 256 * b : Nat) : Int), Ipv4.wrap16 ((c + 256 * d : Nat) : Int), j2, j3], p⟩ := by
  have h1 := C73_get_port true j2 j3 hp [a, b, c, d]
  have h2 : (SockAddr.getIpv4 true j2 j3 ⟨SockAddr.wirePort p, [a, b, c, d]⟩).ip =
      [Ipv4.wrap16 ((a + 256 * b : Nat) : Int), Ipv4.wrap16 ((c + 256 * d : Nat) : Int), j2, j3] := by
    simp [SockAddr.getIpv4, SockAddr.val16]
  unfold reconnectAddr
  rw [← h1, ← h2]

example := C120_reconnect_exact (fun _ => none) 7 8 2 (p := 8080) (by decide) 192 168 1 77

/-- The text such a reconnection hands over shows the stack's numbers: the third and the fourth. -/
example : (match Ipv4.format (SockAddr.getIpv4 true 7 8 ⟨SockAddr.wirePort 8080, [10, 0, 1, 0]⟩).ip with
    | .ok t => some (t.takeWhile (· ≠ 0#8)) | _ => none) = some ("10.1.7.8".toList.map fun c => BitVec.ofNat 8 c.toNat) := by decide +kernel

/-! ## Asking -/

/-- C120: queries that succeed give the system's answer. -/
theorem C120_query_partial (errno : Nat) {v : Int} (h : 0 ≤ v) : getNumber errno (some v) = v ∧ (getFlag errno (some v) = true ↔ v ≠ 0) := by
  have : ¬ v < 0 := by omega
  simp [getNumber, getFlag, getOption, this]

example : (0 : Int) ≤ 1 := by decide

/-- C120: a failed flag query answers no. -/
theorem C120_failed_flag (errno : Nat) : getFlag errno none = false := by
  unfold getFlag getOption
  by_cases h : errno = 0
  · subst h; rfl
  · have : -(errno : Int) < 0 := by omega
    simp [this]

/-- C120 (violated): a failed query of type or pending error gives 0 (for `getError`: no error) exactly if `errno` happens to be 0, and −1
otherwise. -/
theorem C120_failed_query_violated (errno : Nat) :
    (getNumber errno none = 0 ↔ errno = 0) ∧ (errno ≠ 0 → getNumber errno none = -1) := by
  unfold getNumber getOption
  by_cases h : errno = 0
  · subst h; simp
  · have : -(errno : Int) < 0 := by omega
    rw [if_pos this]; exact ⟨⟨fun e => (nomatch e), fun e => absurd e h⟩, fun _ => rfl⟩

/-- C120: `isServer` tells the server sockets the library returns from the client sockets. -/
theorem C120_is_server {s : St} (hs : Reached s) (k : Kind) (addr : Addr) {a : Ans} (ha : AllOk k s a) (errno : Nat) :
    getFlag errno (reuseAddr (create k addr a s).1 (create k addr a s).2) = decide (k = .server) := by
  have hf := reached_fresh hs
  have hn : .closed s.next ∉ s.log := fun h => absurd (hf _ (.inr (.inl h))) (Nat.lt_irrefl _)
  have hr : s.reuse s.next = false := by
    cases h : s.reuse s.next with
    | false => rfl
    | true => exact absurd (hf _ (.inr (.inr h))) (Nat.lt_irrefl _)
  have hl : Live s.next (.made s.next :: s.log) := ⟨by simp, by simp [hn]⟩
  rcases create_cases k addr a s with ⟨g, _⟩ | ⟨_, g, _⟩ | ⟨_, _, hk, e, el, _, er⟩ | ⟨_, _, hk, g, _⟩ | ⟨_, _, hk, _, e, el, _, er⟩
  · exact absurd ha.1 g
  · have := ha.2.1; rw [g] at this; cases this
  · subst hk; rw [e]; simp [reuseAddr, el, er, hl, hr, getFlag, getOption]
  · have := (ha.2.2 hk).1; rw [g] at this; cases this
  · subst hk; rw [e, (ha.2.2 rfl).2]; simp [reuseAddr, el, er, hl, getFlag, getOption]

example : AllOk .client start ⟨true, true, false, false⟩ := by simp [AllOk, Usable]

namespace Flame.WinSock
example := C120_startup (s := step (step start (.create .server (serverAddr 80) ⟨true, true, true, true⟩)) (.create .client zero ⟨true, true, true, true⟩))
  ⟨[.create .server (serverAddr 80) ⟨true, true, true, true⟩, .create .client zero ⟨true, true, true, true⟩], rfl⟩
example := C120_bad_address_violated (pton := fun _ => none) (o := ⟨[127, 0, 0, 1], 80⟩) rfl rfl (s := start) (a := ⟨true, true, false, false⟩)
  (by simp [AllOk, Usable])
end Flame.WinSock

end Flame.WinSock
