import Verif.Win.Net
import Verif.Net.UdpProps

/-! # C121, C122: UDP and TCP calls on Windows -/

namespace Flame.WinNet
open Flame.Own (upd upd_self upd_ne Reach)
open Flame.Udp Flame.UdpSpec

/-- Every datagram `o` takes fits into the room given. -/
def Fits (s : St) : Op → Prop
  | .receive c n => ∀ cl fd p b rest, s.clients c = some cl → s.servers cl.srv = some fd → s.inbox fd = (p, b) :: rest → b.length ≤ n
  | _ => True

/-- The state part of a step. -/
def stepSt (q : Nat) (s : St) (o : Op) : Res St := match step q s o with
  | .ok p => .ok p.1
  | .ub => .ub
  | .loop => .loop

/-- C121: `receive`, exactly: the oldest datagram is taken; it fits: its bytes and its length are returned and the object remembers peer and
socket; it does not: an error is returned. -/
theorem C121_receive_exact {q : Nat} {s s' : St} {c n : Nat} {r : Int} (h : step q s (.receive c n) = .ok (s', r)) :
    ∃ cl fd p b rest, s.clients c = some cl ∧ s.servers cl.srv = some fd ∧ s.inbox fd = (p, b) :: rest ∧ s'.inbox = upd s.inbox fd rest ∧
      ((b.length ≤ n ∧ r = b.length ∧ s'.log = .rx c fd p b :: s.log ∧ s'.clients c = some ⟨cl.srv, some p, some cl.srv⟩) ∨
       (n < b.length ∧ r = -10040 ∧ s'.log = s.log ∧ s'.clients c = some ⟨cl.srv, some p, cl.desc⟩)) := by
  simp only [step] at h
  cases hc : s.clients c with
  | none => rw [hc] at h; cases h
  | some cl =>
    rw [hc] at h
    simp only [receive] at h
    cases hf : s.servers cl.srv with
    | none => rw [hf] at h; cases h
    | some fd =>
      rw [hf] at h
      simp only at h
      cases hb : s.inbox fd with
      | nil => rw [hb] at h; cases h
      | cons pb rest =>
        obtain ⟨p, b⟩ := pb
        rw [hb] at h
        simp only at h
        refine ⟨cl, fd, p, b, rest, rfl, hf, hb, ?_⟩
        by_cases hl : b.length ≤ n
        · simp only [hl, if_true, Res.ok.injEq, Prod.mk.injEq] at h
          obtain ⟨rfl, rfl⟩ := h
          exact ⟨rfl, .inl ⟨hl, rfl, by simp [List.take_of_length_le hl], by simp⟩⟩
        · simp only [hl, if_false, Res.ok.injEq, Prod.mk.injEq] at h
          obtain ⟨rfl, rfl⟩ := h
          exact ⟨rfl, .inr ⟨by omega, rfl, rfl, by simp⟩⟩

/-- A server with a waiting datagram of three bytes from peer 7. -/
def sample : St := ⟨fun i => if i = 0 then some 5 else none, fun c => if c = 1 then some ⟨0, none, none⟩ else none,
  fun fd => if fd = 5 then [(7, [1, 2, 3])] else [], [.fresh 1]⟩

example : ∃ s', step 3 sample (.receive 1 2) = .ok (s', -10040) := ⟨_, rfl⟩
example : ∃ s', step 3 sample (.receive 1 3) = .ok (s', 3) := ⟨_, rfl⟩

/-- C121 (violated): a datagram longer than the room given is lost: the call fails, and the datagram cannot be received any more. -/
theorem C121_long_lost_violated {q : Nat} {s : St} {c n : Nat} {cl : Client} {fd : Nat} {p : Peer} {b : Bytes} {rest : List (Peer × Bytes)}
    (hc : s.clients c = some cl) (hf : s.servers cl.srv = some fd) (hb : s.inbox fd = (p, b) :: rest) (hn : n < b.length) :
    ∃ s', step q s (.receive c n) = .ok (s', -10040) ∧ s'.inbox fd = rest := by
  have : ¬ b.length ≤ n := by omega
  refine ⟨{ s with inbox := upd s.inbox fd rest, clients := upd s.clients c (some { cl with peer := some p }) }, ?_, by simp⟩
  simp [step, hc, receive, hf, hb, this, MSGSIZE]

example : sample.clients 1 = some ⟨0, none, none⟩ ∧ sample.servers 0 = some 5 ∧ sample.inbox 5 = (7, [1, 2, 3]) :: [] := by decide

/-- C121 (violated): replying after such a failure is undefined for an object that has received nothing before. -/
theorem C121_reply_after_failure_ub {q q' : Nat} {s s' : St} {c n : Nat} {cl : Client} (hc : s.clients c = some cl) (hd : cl.desc = none)
    (h : step q s (.receive c n) = .ok (s', -10040)) (b : Bytes) : step q' s' (.send c b) = .ub := by
  obtain ⟨cl', fd, p, b', rest, h1, _, _, _, h5⟩ := C121_receive_exact h
  rw [hc] at h1; injection h1 with h1; subst h1
  rcases h5 with ⟨_, hr, _⟩ | ⟨_, _, _, h6⟩
  · omega
  · simp [step, Udp.step, h6, send, hd]

example : sample.clients 1 = some ⟨0, none, none⟩ ∧ ∃ s', step 3 sample (.receive 1 2) = .ok (s', -10040) := ⟨by decide, _, rfl⟩

/-- C121 (violated): … and for an object that has received something from another peer, the reply goes to the sender of the datagram that was
lost. -/
theorem C121_reply_to_lost_violated {q q' : Nat} {s s' : St} {c n : Nat} {cl : Client} {fd : Nat} {p : Peer} {b : Bytes} {rest : List (Peer × Bytes)}
    (hc : s.clients c = some cl) (hd : cl.desc = some cl.srv) (hf : s.servers cl.srv = some fd) (hb : s.inbox fd = (p, b) :: rest)
    (h : step q s (.receive c n) = .ok (s', -10040)) (m : Bytes) :
    step q' s' (.send c m) = .ok ({ s' with log := .tx c fd (some p) m :: s'.log }, m.length) := by
  have hn : ¬ b.length ≤ n := by
    intro hl
    obtain ⟨cl', fd', p', b', rest', h1, h2, h3, _, h5⟩ := C121_receive_exact h
    rw [hc] at h1; injection h1 with h1; subst h1
    rw [hf] at h2; injection h2 with h2; subst h2
    rw [hb] at h3; injection h3 with h3 h3'; injection h3 with h3 h4; subst h4
    rcases h5 with ⟨_, hr, _⟩ | ⟨hr, _⟩ <;> omega
  simp only [step, hc, receive, hf, hb, hn, if_false, Res.ok.injEq, Prod.mk.injEq] at h
  obtain ⟨rfl, _⟩ := h
  simp [step, Udp.step, send, hd, hf]

example : ∃ s s', s.clients 1 = some (⟨0, some 3, some 0⟩ : Client) ∧ s.servers 0 = some 5 ∧ s.inbox 5 = [(7, [1, 2, 3])] ∧
    step 0 s (.receive 1 2) = .ok (s', -10040) :=
  ⟨{ sample with clients := fun c => if c = 1 then some ⟨0, some 3, some 0⟩ else none }, _, rfl, rfl, rfl, rfl⟩

/-- C121: waiting answers what the system says is waiting, whatever the datagram's length, and takes nothing. -/
theorem C121_wait {q : Nat} {s s' : St} {c i : Nat} {r : Int} (h : step q s (.wait c i) = .ok (s', r)) : r = q ∧ s'.inbox = s.inbox := by
  simp only [step] at h
  cases hf : s.servers i with
  | none => rw [hf] at h; cases h
  | some fd =>
    rw [hf] at h
    simp only at h
    cases hb : s.inbox fd with
    | nil => rw [hb] at h; cases h
    | cons pb rest =>
      rw [hb] at h
      simp only [Res.ok.injEq, Prod.mk.injEq] at h
      obtain ⟨rfl, rfl⟩ := h
      refine ⟨?_, rfl⟩
      unfold waitResult peek
      by_cases hl : pb.2.length ≤ 1
      · have : ¬ ((pb.2.length : Int) < 0) := by omega
        simp [hl, this]
      · simp [hl]

example : ∃ s', step 3 sample (.wait 2 0) = .ok (s', 3) := ⟨_, rfl⟩

/-- C121: as long as the datagrams fit, Windows does what POSIX does (`Verif/Net/Udp.lean`). -/
theorem C121_as_posix_partial (q : Nat) {s : St} {o : Op} (h : Fits s o) : stepSt q s o = Udp.step s o := by
  cases o with
  | receive c n =>
    simp only [stepSt, step, Udp.step]
    cases hc : s.clients c with
    | none => rfl
    | some cl =>
      simp only [receive, Udp.receive]
      cases hf : s.servers cl.srv with
      | none => rfl
      | some fd =>
        simp only
        cases hb : s.inbox fd with
        | nil => rfl
        | cons pb rest =>
          obtain ⟨p, b⟩ := pb
          have hl := h cl fd p b rest hc hf hb
          simp [hl]
  | wait c i =>
    simp only [stepSt, step, Udp.step]
    cases s.servers i with
    | none => rfl
    | some fd => simp only; cases s.inbox fd <;> rfl
  | send c b => simp only [stepSt, step]; cases Udp.step s (.send c b) <;> rfl
  | server i fd => simp only [stepSt, step]; cases Udp.step s (.server i fd) <;> rfl
  | moveServer i j => simp only [stepSt, step]; cases Udp.step s (.moveServer i j) <;> rfl
  | dropServer i => simp only [stepSt, step]; cases Udp.step s (.dropServer i) <;> rfl
  | arrive fd p b => simp only [stepSt, step]; cases Udp.step s (.arrive fd p b) <;> rfl
  | copy c c' => simp only [stepSt, step]; cases Udp.step s (.copy c c') <;> rfl

example : Fits sample (.receive 1 3) ∧ ¬ Fits sample (.receive 1 2) := by
  constructor
  · intro cl fd p b rest h1 h2 h3
    simp only [sample, if_true, Option.some.injEq] at h1; subst h1
    simp only [sample, if_true, Option.some.injEq] at h2; subst h2
    simp [sample] at h3
    simp [← h3.1.2]
  · intro h
    have := h ⟨0, none, none⟩ 5 7 [1, 2, 3] [] rfl rfl rfl
    simp at this

/-- C121 (partial: servers stay where they are, `send` only after `receive`, every datagram fits): every reply goes to the peer of the datagram
last received by that object or by the one it was copied from, through the descriptor it came in on; no call is undefined. -/
theorem C121_reply_partial {q : Nat} {inbox : Nat → List (Peer × Bytes)} {s : St}
    (h : Reach (stepSt q) (fun s o => careful s o ∧ Fits s o) (Udp.init inbox) s) :
    Replies s.log ∧ ∀ o, careful s o → Fits s o → step q s o ≠ .ub := by
  have hr : Reach Udp.step careful (Udp.init inbox) s := by
    induction h with
    | start => exact .start
    | step _ hp he ih => exact .step ih hp.1 (by rw [← C121_as_posix_partial q hp.2]; exact he)
  have hk := C77_reply_partial hr
  refine ⟨hk.1, fun o ho hf he => hk.2 o ho ?_⟩
  rw [← C121_as_posix_partial q hf]
  simp [stepSt, he]

/-- A server, a client object made by waiting, a datagram received, a reply. -/
example : ∃ s, Reach (stepSt 3) (fun s o => careful s o ∧ Fits s o) (Udp.init fun _ => [(7, [1, 2])]) s ∧
    s.log = [.tx 1 5 (some 7) [9], .rx 1 5 7 [1, 2], .fresh 1] := by
  refine ⟨_, .step (o := .send 1 [9]) (.step (o := .receive 1 2) (.step (o := .wait 1 0) (.step (o := .server 0 5) .start ⟨rfl, trivial⟩ rfl)
    ⟨by simp [careful], trivial⟩ rfl) ⟨by simp [careful], ?_⟩ rfl) ⟨⟨_, rfl, by simp⟩, trivial⟩ rfl, rfl⟩
  intro cl fd p b rest h1 h2 h3
  simp [Udp.init] at h3
  simp [← h3.1.2]

/-! ## C122 -/

/-- C122: probing, exactly: on a blocking descriptor (every socket of the library that is not registered for notifications) it does not return
while the connection is idle; otherwise it answers no exactly at an orderly end. -/
theorem C122_alive_exact (nonblock : Bool) {p : Peek} (hp : ∀ c, p = .err c → 0 < c) :
    (alive nonblock p = .loop ↔ p = .idle ∧ nonblock = false) ∧ (alive nonblock p = .ok false ↔ p = .eof) := by
  cases p with
  | data => simp [alive, recvPeek]
  | eof => simp [alive, recvPeek]
  | idle => cases nonblock <;> simp [alive, recvPeek]
  | err c =>
    have := hp c rfl
    have h0 : ¬ c = 0 := by omega
    simp [alive, recvPeek, h0]

/-- C122 (violated): probing an idle connection blocks. -/
theorem C122_idle_violated : alive false .idle = .loop := rfl

/-- C122 (violated): a broken connection is reported alive. -/
theorem C122_broken_violated (nonblock : Bool) {c : Nat} (hc : 0 < c) : alive nonblock (.err c) = .ok true := by
  have h0 : ¬ c = 0 := by omega
  simp [alive, recvPeek, h0]

example : alive true (.err 10054) = .ok true := rfl

/-- C122 (partial: fewer than 2^31 bytes): a transfer moves as many bytes as there are, up to the length asked for. -/
theorem C122_transfer_partial {size : Nat} (h : size < 2 ^ 31) (avail e : Nat) : transfer size avail e = ((min size avail : Nat) : Int) := by
  have : toInt size = size := by
    unfold toInt
    rw [Int.bmod_eq_of_le] <;> omega
  unfold transfer
  rw [this, if_neg (by omega)]
  omega

/-- C122 (violated): a range of 2^31 to 2^32 − 1 bytes (and of any larger size with bit 31 set) is refused. -/
theorem C122_large_violated {size : Nat} (h : 2 ^ 31 ≤ size % 2 ^ 32) (avail e : Nat) : transfer size avail e = -(e : Int) := by
  have : toInt size < 0 := by
    unfold toInt
    rw [Int.bmod_def]
    split <;> omega
  simp [transfer, this]

example : 2 ^ 31 ≤ 3000000000 % 2 ^ 32 := by decide

/-- C122, all sizes exactly: the size is reduced modulo 2^32; the upper half of the residues is refused, of the lower half the reduced number of
bytes is moved, as far as there are as many. -/
theorem C122_transfer_exact (size avail e : Nat) :
    transfer size avail e = if size % 2 ^ 32 < 2 ^ 31 then ((min (size % 2 ^ 32) avail : Nat) : Int) else -(e : Int) := by
  by_cases h : size % 2 ^ 32 < 2 ^ 31
  · have : toInt size = ((size % 2 ^ 32 : Nat) : Int) := by
      unfold toInt
      rw [Int.bmod_def]
      split <;> omega
    rw [if_pos h, transfer, this, if_neg (by omega)]
    omega
  · rw [if_neg h, C122_large_violated (by omega)]

example : transfer (2 ^ 32 + 3) 10 5 = 3 ∧ transfer (2 ^ 31) 10 5 = -5 ∧ transfer 7 10 5 = 7 := by decide

/-- C122 (violated): a range whose size is a multiple of 2^32 moves nothing and returns 0, what a receiver takes for the end of the stream. -/
theorem C122_multiple_violated (k avail e : Nat) : transfer (k * 2 ^ 32) avail e = 0 := by
  have : toInt (k * 2 ^ 32) = 0 := by
    unfold toInt
    rw [Int.bmod_def]
    split <;> omega
  unfold transfer
  rw [this]
  simp
  omega

namespace Flame.WinNet
example := C121_receive_exact (q := 3) (s := sample) (c := 1) (n := 2) rfl
example := C122_alive_exact false (p := .err 10054) (by rintro _ ⟨⟩; decide)
example := C122_transfer_partial (size := 7) (by decide) 10 5
end Flame.WinNet

end Flame.WinNet
