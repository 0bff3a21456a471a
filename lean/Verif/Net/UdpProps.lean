import Verif.Net.Udp

/-! # C77: a UDP server's reply goes to the sender of the datagram last received -/

namespace Flame

open Udp
open Flame.Own (Reach upd upd_self upd_ne)

namespace UdpSpec

/-- **Specification.** The peer (and the descriptor) of the datagram last received through client object `c`, or through the object it was
copied from. -/
def lastRx : List Ev → Nat → Option (Nat × Peer)
  | [], _ => none
  | .fresh k :: l, c => if k = c then none else lastRx l c
  | .copied k k' :: l, c => if k = c then lastRx l k' else lastRx l c
  | .rx k fd p _ :: l, c => if k = c then some (fd, p) else lastRx l c
  | .tx _ _ _ _ :: l, c => lastRx l c

/-- Every reply goes to the peer of the last datagram received by that object, through the same descriptor. -/
def Replies : List Ev → Prop
  | [] => True
  | .tx c fd p _ :: l => (∃ q, p = some q ∧ lastRx l c = some (fd, q)) ∧ Replies l
  | _ :: l => Replies l

end UdpSpec

open UdpSpec

namespace Udp

structure Inv (s : St) : Prop where
  replies : Replies s.log
  /-- pointers lead to servers that exist -/
  srv : ∀ c cl, s.clients c = some cl → s.servers cl.srv ≠ none
  /-- the stored peer is that of the last reception -/
  last : ∀ c cl, s.clients c = some cl →
    (cl.desc = none ∧ lastRx s.log c = none) ∨
    (∃ fd p, cl.desc = some cl.srv ∧ cl.peer = some p ∧ s.servers cl.srv = some fd ∧ lastRx s.log c = some (fd, p))

theorem inv_init (inbox : Nat → List (Peer × Bytes)) : Inv (init inbox) := ⟨trivial, by simp [init], by simp [init]⟩

theorem step_inv {s s' : St} {o : Op} (h : Inv s) (hp : careful s o) (he : step s o = .ok s') : Inv s' := by
  cases o with
  | server i fd =>
    simp only [careful] at hp
    simp only [step, hp, Res.ok.injEq] at he
    subst he
    have hne : ∀ c cl, s.clients c = some cl → cl.srv ≠ i := by
      intro c cl hc e; exact h.srv c cl hc (e ▸ hp)
    refine ⟨h.replies, ?_, ?_⟩
    · intro c cl hc
      show upd s.servers i (some fd) cl.srv ≠ none
      rw [upd_ne _ _ (hne c cl hc)]; exact h.srv c cl hc
    · intro c cl hc
      show _ ∨ ∃ fd' p, _ ∧ _ ∧ upd s.servers i (some fd) cl.srv = some fd' ∧ _
      rw [upd_ne _ _ (hne c cl hc)]; exact h.last c cl hc
  | moveServer i j =>
    obtain ⟨hi, hj, hcl⟩ := hp
    obtain ⟨fd, hfd⟩ := Option.ne_none_iff_exists'.mp hj
    simp only [step, hi, hfd, Res.ok.injEq] at he
    subst he
    have hne : ∀ c cl, s.clients c = some cl → upd (upd s.servers i (some fd)) j (some 0) cl.srv = s.servers cl.srv := by
      intro c cl hc
      rw [upd_ne _ _ (hcl c cl hc), upd_ne _ _ (by intro e; exact h.srv c cl hc (e ▸ hi))]
    refine ⟨h.replies, ?_, ?_⟩
    · intro c cl hc
      show upd (upd s.servers i (some fd)) j (some 0) cl.srv ≠ none
      rw [hne c cl hc]; exact h.srv c cl hc
    · intro c cl hc
      show _ ∨ ∃ fd' p, _ ∧ _ ∧ upd (upd s.servers i (some fd)) j (some 0) cl.srv = some fd' ∧ _
      rw [hne c cl hc]; exact h.last c cl hc
  | dropServer i =>
    obtain ⟨hi, hcl⟩ := hp
    obtain ⟨fd, hfd⟩ := Option.ne_none_iff_exists'.mp hi
    simp only [step, hfd, Res.ok.injEq] at he
    subst he
    refine ⟨h.replies, ?_, ?_⟩
    · intro c cl hc
      show upd s.servers i none cl.srv ≠ none
      rw [upd_ne _ _ (hcl c cl hc)]; exact h.srv c cl hc
    · intro c cl hc
      show _ ∨ ∃ fd' p, _ ∧ _ ∧ upd s.servers i none cl.srv = some fd' ∧ _
      rw [upd_ne _ _ (hcl c cl hc)]; exact h.last c cl hc
  | arrive fd p b =>
    simp only [step, Res.ok.injEq] at he
    subst he
    exact ⟨h.replies, h.srv, h.last⟩
  | wait c i =>
    obtain ⟨fd, hfd⟩ := Option.ne_none_iff_exists'.mp (show s.servers i ≠ none from hp)
    simp only [step, hfd] at he
    split at he
    · cases he
    · injection he with he
      subst he
      refine ⟨h.replies, ?_, ?_⟩
      · intro k cl hk
        by_cases hkc : k = c
        · subst hkc
          simp only [upd_self, Option.some.injEq] at hk
          subst hk
          exact hp
        · simp only [upd_ne _ _ hkc] at hk
          exact h.srv k cl hk
      · intro k cl hk
        by_cases hkc : k = c
        · subst hkc
          simp only [upd_self, Option.some.injEq] at hk
          subst hk
          exact .inl ⟨rfl, by simp [lastRx]⟩
        · simp only [upd_ne _ _ hkc] at hk
          have : lastRx (.fresh c :: s.log) k = lastRx s.log k := by
            simp only [lastRx]; rw [if_neg (Ne.symm hkc)]
          show (_ ∧ lastRx (.fresh c :: s.log) k = none) ∨ ∃ fd p, _ ∧ _ ∧ _ ∧ lastRx (.fresh c :: s.log) k = _
          rw [this]
          exact h.last k cl hk
  | copy c c' =>
    obtain ⟨cl', hcl'⟩ := Option.ne_none_iff_exists'.mp (show s.clients c' ≠ none from hp)
    simp only [step, hcl', Res.ok.injEq] at he
    subst he
    refine ⟨h.replies, ?_, ?_⟩
    · intro k cl hk
      by_cases hkc : k = c
      · subst hkc
        simp only [upd_self, Option.some.injEq] at hk
        subst hk
        exact h.srv c' cl' hcl'
      · simp only [upd_ne _ _ hkc] at hk
        exact h.srv k cl hk
    · intro k cl hk
      show (_ ∧ lastRx (.copied c c' :: s.log) k = none) ∨ ∃ fd p, _ ∧ _ ∧ _ ∧ lastRx (.copied c c' :: s.log) k = _
      by_cases hkc : k = c
      · subst hkc
        simp only [upd_self, Option.some.injEq] at hk
        subst hk
        simp only [lastRx, if_true]
        exact h.last c' cl' hcl'
      · simp only [upd_ne _ _ hkc] at hk
        simp only [lastRx, if_neg (Ne.symm hkc)]
        exact h.last k cl hk
  | receive c n =>
    obtain ⟨cl0, hcl0⟩ := Option.ne_none_iff_exists'.mp (show s.clients c ≠ none from hp)
    simp only [step, hcl0, receive] at he
    split at he
    · cases he
    · rename_i fd hfd
      split at he
      · cases he
      · rename_i p b rest hin
        injection he with he
        subst he
        refine ⟨h.replies, ?_, ?_⟩
        · intro k cl hk
          by_cases hkc : k = c
          · subst hkc
            simp only [upd_self, Option.some.injEq] at hk
            subst hk
            exact h.srv k cl0 hcl0
          · simp only [upd_ne _ _ hkc] at hk
            exact h.srv k cl hk
        · intro k cl hk
          show (_ ∧ lastRx (.rx c fd p (b.take n) :: s.log) k = none) ∨
            ∃ fd' p', _ ∧ _ ∧ _ ∧ lastRx (.rx c fd p (b.take n) :: s.log) k = _
          by_cases hkc : k = c
          · subst hkc
            simp only [upd_self, Option.some.injEq] at hk
            subst hk
            simp only [lastRx, if_true]
            refine .inr ⟨fd, p, ?_, ?_, hfd, ?_⟩ <;> simp
          · simp only [upd_ne _ _ hkc] at hk
            simp only [lastRx, if_neg (Ne.symm hkc)]
            exact h.last k cl hk
  | send c b =>
    obtain ⟨cl, hcl, hd⟩ := hp
    rcases h.last c cl hcl with ⟨hn, _⟩ | ⟨fd, p, h1, h2, h3, h4⟩
    · exact absurd hn hd
    · simp only [step, hcl, send, h1, h3, Res.ok.injEq] at he
      subst he
      refine ⟨⟨⟨p, h2, h4⟩, h.replies⟩, h.srv, ?_⟩
      intro k cl' hk
      exact h.last k cl' hk

theorem reach_inv {inbox : Nat → List (Peer × Bytes)} {s : St} (h : Reach step careful (init inbox) s) : Inv s :=
  h.inv (inv_init inbox) (fun _ _ _ hi hp he => step_inv hi hp he)

end Udp

/-- **C77, what holds.** As long as servers are neither moved nor destroyed while clients of them exist, and `send` is used only after a
`receive`: every reply ever sent goes to the peer of the datagram last received by that client object (or by the one it was copied from),
through the descriptor it came in on; and no such call is undefined. -/
theorem C77_reply_partial {inbox : Nat → List (Peer × Bytes)} {s : Udp.St} (h : Reach Udp.step Udp.careful (Udp.init inbox) s) :
    Replies s.log ∧ ∀ o, Udp.careful s o → Udp.step s o ≠ .ub := by
  have hi := Udp.reach_inv h
  refine ⟨hi.replies, ?_⟩
  intro o hp he
  cases o with
  | server i fd => simp only [careful] at hp; simp [step, hp] at he
  | moveServer i j =>
    obtain ⟨h1, h2, _⟩ := hp
    obtain ⟨fd, hfd⟩ := Option.ne_none_iff_exists'.mp h2
    simp [step, h1, hfd] at he
  | dropServer i =>
    obtain ⟨fd, hfd⟩ := Option.ne_none_iff_exists'.mp hp.1
    simp [step, hfd] at he
  | arrive fd p b => simp [step] at he
  | wait c i =>
    obtain ⟨fd, hfd⟩ := Option.ne_none_iff_exists'.mp (show s.servers i ≠ none from hp)
    simp only [step, hfd] at he
    split at he <;> cases he
  | copy c c' =>
    obtain ⟨cl, hcl⟩ := Option.ne_none_iff_exists'.mp (show s.clients c' ≠ none from hp)
    simp [step, hcl] at he
  | receive c n =>
    obtain ⟨cl, hcl⟩ := Option.ne_none_iff_exists'.mp (show s.clients c ≠ none from hp)
    obtain ⟨fd, hfd⟩ := Option.ne_none_iff_exists'.mp (hi.srv c cl hcl)
    simp only [step, hcl, receive, hfd] at he
    split at he <;> cases he
  | send c b =>
    obtain ⟨cl, hcl, hd⟩ := hp
    rcases hi.last c cl hcl with ⟨hn, _⟩ | ⟨fd, p, h1, h2, h3, h4⟩
    · exact absurd hn hd
    · simp [step, hcl, send, h1, h3] at he

/-- **C77, reception.** `receive` takes exactly the oldest waiting datagram of the server's descriptor; the caller gets its first `n` bytes;
every other descriptor's datagrams stay. -/
theorem C77_receive_exact {inbox : Nat → List (Peer × Bytes)} {s s' : Udp.St}
    (_ : Reach Udp.step Udp.careful (Udp.init inbox) s) {c n : Nat} (he : Udp.step s (.receive c n) = .ok s') :
    ∃ cl fd p b, s.clients c = some cl ∧ s.servers cl.srv = some fd ∧ s.inbox fd = (p, b) :: s'.inbox fd ∧
      (∀ fd', fd' ≠ fd → s'.inbox fd' = s.inbox fd') ∧ s'.log = .rx c fd p (b.take n) :: s.log := by
  simp only [step] at he
  split at he
  · rename_i cl hcl
    simp only [receive] at he
    split at he
    · cases he
    · rename_i fd hfd
      split at he
      · cases he
      · rename_i p b rest hin
        injection he with he
        subst he
        refine ⟨cl, fd, p, b, hcl, hfd, ?_, ?_, rfl⟩
        · simp [hin]
        · intro fd' hne
          exact upd_ne _ _ hne
  · cases he

/-- **C77 fails.** `send` on the object `wait()` returned, before anything was received through it, dereferences a null pointer — although
`wait()` has already seen the peer's address: in every state, whatever happened in between to other client objects. -/
theorem C77_send_after_wait_ub {s s₁ s₂ : Udp.St} {c i : Nat} {b : Bytes} (hw : Udp.step s (.wait c i) = .ok s₁)
    {os : List Udp.Op} (ho : ∀ o ∈ os, match o with
      | .wait k _ | .copy k _ | .receive k _ => k ≠ c
      | _ => True)
    (hs : runOps Udp.step s₁ os = .ok s₂) : Udp.step s₂ (.send c b) = .ub := by
  have h1 : ∃ cl, s₁.clients c = some cl ∧ cl.desc = none := by
    simp only [step] at hw
    split at hw
    · cases hw
    · split at hw
      · cases hw
      · injection hw with hw
        subst hw
        exact ⟨⟨i, none, none⟩, by simp, rfl⟩
  have h2 : ∃ cl, s₂.clients c = some cl ∧ cl.desc = none := by
    clear hw
    induction os generalizing s₁ with
    | nil => simp only [runOps_nil, Res.ok.injEq] at hs; subst hs; exact h1
    | cons o os ih =>
      simp only [runOps] at hs
      cases hst : step s₁ o with
      | ub => rw [hst] at hs; cases hs
      | loop => rw [hst] at hs; cases hs
      | ok t =>
        rw [hst] at hs
        refine ih (fun o' h' => ho o' (List.mem_cons_of_mem _ h')) hs ?_
        have hoo := ho o List.mem_cons_self
        have : t.clients c = s₁.clients c := by
          cases o with
          | server i fd => simp only [step] at hst; split at hst <;> cases hst; rfl
          | moveServer i j => simp only [step] at hst; split at hst <;> cases hst; rfl
          | dropServer i => simp only [step] at hst; split at hst <;> cases hst; rfl
          | arrive fd p b => cases hst; rfl
          | wait k i =>
            simp only [step] at hst
            split at hst
            · cases hst
            · split at hst <;> cases hst
              exact upd_ne _ _ (Ne.symm hoo)
          | copy k k' => simp only [step] at hst; split at hst <;> cases hst; exact upd_ne _ _ (Ne.symm hoo)
          | receive k n =>
            simp only [step] at hst
            split at hst
            · simp only [receive] at hst
              split at hst
              · cases hst
              · split at hst <;> cases hst
                exact upd_ne _ _ (Ne.symm hoo)
            · cases hst
          | send k b =>
            simp only [step] at hst
            split at hst
            · simp only [send] at hst
              split at hst
              · cases hst
              · split at hst <;> cases hst
                rfl
            · cases hst
        rw [this]
        exact h1
  obtain ⟨cl, hcl, hd⟩ := h2
  simp [step, hcl, send, hd]

/-- **C77 fails.** After the server is moved, a client of it that has received something sends through descriptor 0, not through the
server's socket. -/
theorem C77_moved_server_wrong_descriptor {inbox : Nat → List (Peer × Bytes)} {s s₁ : Udp.St}
    (h : Reach Udp.step Udp.careful (Udp.init inbox) s) {c i j : Nat} {cl : Udp.Client} (hc : s.clients c = some cl)
    (hd : cl.desc ≠ none) (hj : cl.srv = j) (hm : Udp.step s (.moveServer i j) = .ok s₁) (b : Bytes) :
    ∃ p, Udp.step s₁ (.send c b) = .ok { s₁ with log := .tx c 0 p b :: s₁.log } := by
  rcases (Udp.reach_inv h).last c cl hc with ⟨hn, _⟩ | ⟨fd, p, h1, h2, h3, h4⟩
  · exact absurd hn hd
  · simp only [step] at hm
    split at hm
    · injection hm with hm
      subst hm
      refine ⟨cl.peer, ?_⟩
      subst hj
      simp only [step, hc, send, h1, upd_self]
    · cases hm

/-- **C77 fails.** After the server is destroyed, using a client of it is undefined. -/
theorem C77_dropped_server_ub {inbox : Nat → List (Peer × Bytes)} {s s₁ : Udp.St}
    (h : Reach Udp.step Udp.careful (Udp.init inbox) s) {c : Nat} {cl : Udp.Client} (hc : s.clients c = some cl)
    (hm : Udp.step s (.dropServer cl.srv) = .ok s₁) (b : Bytes) (n : Nat) :
    Udp.step s₁ (.send c b) = .ub ∧ Udp.step s₁ (.receive c n) = .ub := by
  have hs : s₁.servers cl.srv = none ∧ s₁.clients = s.clients := by
    simp only [step] at hm
    split at hm
    · injection hm with hm; subst hm; exact ⟨upd_self _ _ _, rfl⟩
    · cases hm
  refine ⟨?_, by simp [step, hs.2, hc, receive, hs.1]⟩
  rcases (Udp.reach_inv h).last c cl hc with ⟨hn, _⟩ | ⟨fd, p, h1, h2, h3, h4⟩
  · simp [step, hs.2, hc, send, hn]
  · simp [step, hs.2, hc, send, h1, hs.1]

/-! ## Concrete cases -/

/-- two clients of one server, a copy of the first; replies follow the copies -/
example : (match runOps Udp.step (Udp.init fun _ => []) [.server 0 5, .arrive 5 77 [1, 2, 3], .arrive 5 88 [4], .wait 0 0, .wait 1 0,
      .receive 0 2, .receive 1 9, .copy 2 0, .send 1 [9], .send 2 [8], .send 0 [7]] with
    | .ok s => some s.log | _ => none) =
    some [.tx 0 5 (some 77) [7], .tx 2 5 (some 77) [8], .tx 1 5 (some 88) [9], .copied 2 0, .rx 1 5 88 [4], .rx 0 5 77 [1, 2], .fresh 1,
      .fresh 0] := by decide
example : runOps Udp.step (Udp.init fun _ => []) [.server 0 5, .arrive 5 77 [1], .wait 0 0, .send 0 [9]] = .ub := by rfl
example : (match runOps Udp.step (Udp.init fun _ => []) [.server 0 5, .arrive 5 77 [1], .wait 0 0, .receive 0 1, .moveServer 1 0, .send 0 [9]] with
    | .ok s => some s.log | _ => none) = some [.tx 0 0 (some 77) [9], .rx 0 5 77 [1], .fresh 0] := by decide

example : ∃ s, Reach Udp.step Udp.careful (Udp.init fun _ => []) s ∧ s.log = [.tx 0 5 (some 77) [9], .rx 0 5 77 [1], .fresh 0] := by
  refine ⟨_, .step (o := .send 0 [9]) (.step (o := .receive 0 1) (.step (o := .wait 0 0) (.step (o := .arrive 5 77 [1])
    (.step (o := .server 0 5) .start rfl rfl) trivial rfl) ?_ rfl) ?_ rfl) ?_ rfl, rfl⟩
  · exact (by decide : (upd (fun _ => none) 0 (some 5) : Nat → Option Nat) 0 ≠ none)
  · simp [careful]
  · exact ⟨_, rfl, by simp⟩

namespace Flame
open Udp
open Flame.Own (Reach upd upd_self upd_ne)
private theorem udp_reach : ∃ s, Reach Udp.step Udp.careful (Udp.init fun _ => []) s ∧ s.log = [.rx 0 5 77 [1], .fresh 0] ∧
    (∃ cl, s.clients 0 = some cl ∧ cl.desc ≠ none ∧ cl.srv = 0) ∧ (∃ s', Udp.step s (.moveServer 1 0) = .ok s') ∧
    (∃ s', Udp.step s (.dropServer 0) = .ok s') ∧ (∃ s', Udp.step s (.wait 0 0) = .ok s') ∧ ∃ s', Udp.step s (.receive 0 4) = .ok s' := by
  refine ⟨_, .step (o := .receive 0 1) (.step (o := .wait 0 0) (.step (o := .arrive 5 78 [2]) (.step (o := .arrive 5 77 [1])
    (.step (o := .server 0 5) .start rfl rfl) trivial rfl) trivial rfl) ?_ rfl) ?_ rfl, rfl, ⟨_, rfl, by simp, rfl⟩, ⟨_, rfl⟩, ⟨_, rfl⟩, ⟨_, rfl⟩, ⟨_, rfl⟩⟩
  · exact (by decide : (upd (fun _ => none) 0 (some 5) : Nat → Option Nat) 0 ≠ none)
  · simp [careful]
example := udp_reach.imp fun _ h => C77_reply_partial h.1
example : ∃ s s', Udp.step s (.receive 0 4) = .ok s' ∧ ∃ cl fd p b, s.clients 0 = some cl ∧ s.servers cl.srv = some fd ∧
    s.inbox fd = (p, b) :: s'.inbox fd ∧ s'.log = .rx 0 fd p (b.take 4) :: s.log := by
  obtain ⟨s, h, _, _, _, _, _, ⟨s', hs⟩⟩ := udp_reach
  obtain ⟨cl, fd, p, b, h1, h2, h3, _, h5⟩ := C77_receive_exact h hs
  exact ⟨s, s', hs, cl, fd, p, b, h1, h2, h3, h5⟩
example : ∃ s₁ s₂, Udp.step s₁ (.dropServer 0) = .ok s₂ ∧ Udp.step s₂ (.send 0 [9]) = .ub := by
  obtain ⟨s, h, _, ⟨cl, hc, _, hj⟩, _, ⟨s', hs⟩, _⟩ := udp_reach
  rw [← hj] at hs
  exact ⟨s, s', hj ▸ hs, (C77_dropped_server_ub h hc hs [9] 1).1⟩
example : ∃ s₁ p, ∃ s₂, Udp.step s₁ (.send 0 [9]) = .ok s₂ ∧ s₂.log = .tx 0 0 p [9] :: s₁.log := by
  obtain ⟨s, h, _, ⟨cl, hc, hd, hj⟩, ⟨s', hs⟩, _⟩ := udp_reach
  obtain ⟨p, e⟩ := C77_moved_server_wrong_descriptor h hc hd hj hs [9]
  exact ⟨s', p, _, e, rfl⟩
example : ∃ s₂, Udp.step s₂ (.send 0 [9]) = .ub := by
  obtain ⟨s, h, _, _, _, _, ⟨s', hs⟩, _⟩ := udp_reach
  exact ⟨s', C77_send_after_wait_ub hs (os := []) (by simp) rfl⟩
end Flame

end Flame
