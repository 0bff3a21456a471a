import Verif.Net.Dgram

/-!
# C172: datagrams between a UDP server and its clients

The specification looks at the calls (`Got`: range, value returned, bytes) and at the list of datagrams sent.
-/

namespace Flame.Dgram
open Own

/-- `g` is the beginning of one datagram sent to the address, as much as fits, and its size was returned. -/
def OneOf (sent : List Pkt) (g : Got) : Prop :=
  ∃ p ∈ sent, p.dst = g.at_ ∧ p.src = g.from_ ∧ g.data = p.data.take g.room ∧ g.ret = (g.data.length : Int)

theorem OneOf.mono {l l' : List Pkt} {g : Got} (h : OneOf l g) (hl : ∀ p ∈ l, p ∈ l') : OneOf l' g := by
  obtain ⟨p, hp, h⟩ := h
  exact ⟨p, hl p hp, h⟩

structure Inv (s : St) : Prop where
  fly : ∀ p ∈ s.flying, p ∈ s.sent
  que : ∀ a, ∀ p ∈ s.queue a, p ∈ s.sent ∧ p.dst = a
  got : ∀ g ∈ s.got, OneOf s.sent g ∨ (g.ret < 0 ∧ g.data = [])

theorem settle_eq (s : St) (a : Addr) (r : Int) :
    (settle s a r).flying = s.flying ∧ (settle s a r).queue = s.queue ∧ (settle s a r).sent = s.sent ∧ (settle s a r).got = s.got ∧
      (settle s a r).bound = s.bound ∧ (settle s a r).peer = s.peer ∧ (settle s a r).rets = s.rets := by
  unfold settle; split <;> simp

theorem mem_eraseIdx {p : Pkt} {l : List Pkt} {k : Nat} (h : p ∈ l.eraseIdx k) : p ∈ l :=
  List.mem_of_mem_eraseIdx h

theorem inv_emit {s : St} (h : Inv s) (p : Pkt) : Inv (emit s p) := by
  refine ⟨?_, ?_, ?_⟩
  · intro q hq
    simp only [emit, List.mem_append, List.mem_singleton] at hq ⊢
    exact hq.imp_left (h.fly q)
  · intro a q hq
    exact ⟨by simp only [emit, List.mem_append]; exact .inl (h.que a q hq).1, (h.que a q hq).2⟩
  · intro g hg
    exact (h.got g hg).imp_left fun h => h.mono fun q hq => by simp only [emit, List.mem_append]; exact .inl hq

theorem inv_congr {s s' : St} (h : Inv s) (e1 : s'.flying = s.flying) (e2 : s'.queue = s.queue) (e3 : s'.sent = s.sent)
    (e4 : s'.got = s.got) : Inv s' := by
  refine ⟨?_, ?_, ?_⟩
  · rw [e1, e3]; exact h.fly
  · rw [e2, e3]; exact h.que
  · rw [e3, e4]; exact h.got

theorem inv_take {s s' : St} (h : Inv s) {a : Addr} {n : Nat} (e : take s a n = .ok s') : Inv s' := by
  unfold take at e
  cases hq : s.queue a with
  | nil => rw [hq] at e; cases e
  | cons p rest =>
    rw [hq] at e
    simp only [Res.ok.injEq] at e
    subst e
    have hp := h.que a p (by rw [hq]; exact List.mem_cons_self ..)
    refine ⟨h.fly, ?_, ?_⟩
    · intro b q hb
      replace hb : q ∈ upd s.queue a rest b := hb
      by_cases e : b = a
      · subst e
        rw [show upd s.queue b rest b = rest from upd_self ..] at hb
        exact h.que b q (by rw [hq]; exact List.mem_cons_of_mem _ hb)
      · rw [show upd s.queue a rest b = s.queue b from upd_ne _ _ e] at hb
        exact h.que b q hb
    · intro g hg
      rcases List.mem_append.mp hg with hg | hg
      · exact h.got g hg
      · rw [List.mem_singleton] at hg
        subst hg
        exact .inl ⟨p, hp.1, hp.2, rfl, rfl, rfl⟩

theorem inv_step {srv : Addr} {s s' : St} {o : Op} (h : Inv s) (hp : pre srv s o) (e : step srv s o = .ok s') : Inv s' := by
  cases o with
  | clientSend a b =>
    simp only [step, Res.ok.injEq] at e
    subst e
    obtain ⟨e1, e2, e3, e4, _⟩ := settle_eq
      { emit { s with bound := upd s.bound a true } ⟨a, srv, b⟩ with rets := s.rets ++ [(b.length : Int)] } a (b.length : Int)
    exact inv_congr (inv_emit h ⟨a, srv, b⟩) e1 e2 e3 e4
  | clientSendFails a b code =>
    simp only [step, Res.ok.injEq] at e
    subst e
    obtain ⟨e1, e2, e3, e4, _⟩ := settle_eq { s with rets := s.rets ++ [-(code : Int)] } a (-(code : Int))
    exact inv_congr h e1 e2 e3 e4
  | clientReceive a n =>
    simp only [step] at e
    split at e
    · exact inv_take h e
    · cases e
  | clientReceiveFails a n code =>
    simp only [step, Res.ok.injEq] at e
    subst e
    obtain ⟨e1, e2, e3, e4, _⟩ := settle_eq { s with got := s.got ++ [⟨a, n, -(code : Int), [], 0⟩] } a (-(code : Int))
    refine ⟨by rw [e1, e3]; exact h.fly, by rw [e2, e3]; exact h.que, ?_⟩
    rw [e3, e4]
    intro g hg
    rcases List.mem_append.mp hg with hg | hg
    · exact h.got g hg
    · rw [List.mem_singleton] at hg
      subst hg
      exact .inr ⟨by have := hp.2; show -(code : Int) < 0; omega, rfl⟩
  | serverReceive n =>
    simp only [step] at e
    cases hq : s.queue srv with
    | nil => rw [hq] at e; cases e
    | cons p rest =>
      rw [hq] at e
      exact inv_take (s := { s with peer := some p.src }) (inv_congr h rfl rfl rfl rfl) e
  | serverSend b =>
    simp only [step] at e
    cases hq : s.peer with
    | none => rw [hq] at e; cases e
    | some a =>
      rw [hq] at e
      simp only [Res.ok.injEq] at e
      subst e
      exact inv_congr (inv_emit h ⟨srv, a, b⟩) rfl rfl rfl rfl
  | foreign p =>
    simp only [step, Res.ok.injEq] at e
    subst e
    exact inv_emit h p
  | carry k =>
    simp only [step] at e
    cases hq : s.flying[k]? with
    | none => rw [hq] at e; cases e
    | some p =>
      rw [hq] at e
      simp only [Res.ok.injEq] at e
      subst e
      refine ⟨fun q hq => h.fly q (mem_eraseIdx hq), ?_, h.got⟩
      intro a q hq'
      replace hq' : q ∈ upd s.queue p.dst (s.queue p.dst ++ [p]) a := hq'
      by_cases e : a = p.dst
      · subst e
        rw [show upd s.queue p.dst (s.queue p.dst ++ [p]) p.dst = s.queue p.dst ++ [p] from upd_self ..] at hq'
        rcases List.mem_append.mp hq' with hq' | hq'
        · exact h.que _ q hq'
        · rw [List.mem_singleton] at hq'
          subst hq'
          exact ⟨h.fly _ (List.mem_of_getElem? hq), rfl⟩
      · rw [show upd s.queue p.dst (s.queue p.dst ++ [p]) a = s.queue a from upd_ne _ _ e] at hq'
        exact h.que a q hq'
  | lose k =>
    simp only [step, Res.ok.injEq] at e
    subst e
    exact ⟨fun q hq => h.fly q (mem_eraseIdx hq), h.que, h.got⟩
  | double k =>
    simp only [step] at e
    cases hq : s.flying[k]? with
    | none => rw [hq] at e; cases e
    | some p =>
      rw [hq] at e
      simp only [Res.ok.injEq] at e
      subst e
      refine ⟨?_, h.que, h.got⟩
      intro q hq'
      rcases List.mem_append.mp hq' with hq' | hq'
      · exact h.fly q hq'
      · rw [List.mem_singleton] at hq'
        subst hq'
        exact h.fly _ (List.mem_of_getElem? hq)

theorem inv_start : Inv start := ⟨by simp [start], by simp [start], by simp [start]⟩

theorem reach_inv {srv : Addr} {s : St} (h : Reach (step srv) (pre srv) start s) : Inv s :=
  h.inv inv_start (fun _ _ _ hi hp hs => inv_step hi hp hs)

/-! ## Without strangers -/

structure QInv (srv : Addr) (s : St) : Prop where
  ends : ∀ p ∈ s.sent, (p.src = srv ∧ p.dst ≠ srv ∧ ∃ q ∈ s.sent, q.src = p.dst ∧ q.dst = srv) ∨ (p.src ≠ srv ∧ p.dst = srv)
  peer : ∀ a, s.peer = some a → a ≠ srv ∧ ∃ q ∈ s.sent, q.src = a ∧ q.dst = srv

theorem qinv_emit {srv : Addr} {s : St} (h : QInv srv s) {p : Pkt}
    (hp : (p.src = srv ∧ p.dst ≠ srv ∧ ∃ q ∈ s.sent, q.src = p.dst ∧ q.dst = srv) ∨ (p.src ≠ srv ∧ p.dst = srv)) :
    QInv srv (emit s p) := by
  have up : ∀ q ∈ s.sent, q ∈ (emit s p).sent := fun q hq => by simp only [emit, List.mem_append]; exact .inl hq
  refine ⟨?_, ?_⟩
  · intro q hq
    have hq' : q ∈ s.sent ∨ q = p := by simpa [emit] using hq
    rcases hq' with hq' | rfl
    · rcases h.ends q hq' with ⟨a, b, r, hr, c⟩ | hh
      · exact .inl ⟨a, b, r, up r hr, c⟩
      · exact .inr hh
    · rcases hp with ⟨a, b, r, hr, c⟩ | hh
      · exact .inl ⟨a, b, r, up r hr, c⟩
      · exact .inr hh
  · intro a ha
    obtain ⟨hn, r, hr, c⟩ := h.peer a ha
    exact ⟨hn, r, up r hr, c⟩

theorem qinv_congr {srv : Addr} {s s' : St} (h : QInv srv s) (e1 : s'.sent = s.sent) (e2 : s'.peer = s.peer) : QInv srv s' :=
  ⟨by rw [e1]; exact h.ends, by rw [e1, e2]; exact h.peer⟩

theorem take_eq {s s' : St} {a : Addr} {n : Nat} (e : take s a n = .ok s') : s'.sent = s.sent ∧ s'.peer = s.peer := by
  unfold take at e
  split at e
  · cases e
  · simp only [Res.ok.injEq] at e
    subst e
    exact ⟨rfl, rfl⟩

theorem qinv_step {srv : Addr} {s s' : St} {o : Op} (hi : Inv s) (h : QInv srv s) (hp : quiet srv s o) (e : step srv s o = .ok s') :
    QInv srv s' := by
  obtain ⟨hp, hf⟩ := hp
  cases o with
  | clientSend a b =>
    simp only [step, Res.ok.injEq] at e
    subst e
    obtain ⟨_, _, e3, _, _, e6, _⟩ := settle_eq
      { emit { s with bound := upd s.bound a true } ⟨a, srv, b⟩ with rets := s.rets ++ [(b.length : Int)] } a (b.length : Int)
    exact qinv_congr (qinv_emit h (p := ⟨a, srv, b⟩) (.inr ⟨hp, rfl⟩)) e3 e6
  | clientSendFails a b code =>
    simp only [step, Res.ok.injEq] at e
    subst e
    obtain ⟨_, _, e3, _, _, e6, _⟩ := settle_eq { s with rets := s.rets ++ [-(code : Int)] } a (-(code : Int))
    exact qinv_congr h e3 e6
  | clientReceive a n =>
    simp only [step] at e
    split at e
    · exact qinv_congr h (take_eq e).1 (take_eq e).2
    · cases e
  | clientReceiveFails a n code =>
    simp only [step, Res.ok.injEq] at e
    subst e
    obtain ⟨_, _, e3, _, _, e6, _⟩ := settle_eq { s with got := s.got ++ [⟨a, n, -(code : Int), [], 0⟩] } a (-(code : Int))
    exact qinv_congr h e3 e6
  | serverReceive n =>
    simp only [step] at e
    cases hq : s.queue srv with
    | nil => rw [hq] at e; cases e
    | cons p rest =>
      rw [hq] at e
      have hm := hi.que srv p (by rw [hq]; exact List.mem_cons_self ..)
      refine qinv_congr (s := { s with peer := some p.src }) ⟨h.ends, ?_⟩ (take_eq e).1 (take_eq e).2
      intro a ha
      simp only [Option.some.injEq] at ha
      subst ha
      rcases h.ends p hm.1 with hh | hh
      · exact absurd hm.2 hh.2.1
      · exact ⟨hh.1, p, hm.1, rfl, hm.2⟩
  | serverSend b =>
    simp only [step] at e
    cases hq : s.peer with
    | none => rw [hq] at e; cases e
    | some a =>
      rw [hq] at e
      simp only [Res.ok.injEq] at e
      subst e
      obtain ⟨hn, hx⟩ := h.peer a hq
      exact qinv_congr (qinv_emit h (p := ⟨srv, a, b⟩) (.inl ⟨rfl, hn, hx⟩)) rfl rfl
  | foreign p => exact absurd rfl (hf p)
  | carry k =>
    simp only [step] at e
    split at e
    · cases e
    · simp only [Res.ok.injEq] at e
      subst e
      exact qinv_congr h rfl rfl
  | lose k =>
    simp only [step, Res.ok.injEq] at e
    subst e
    exact qinv_congr h rfl rfl
  | double k =>
    simp only [step] at e
    split at e
    · cases e
    · simp only [Res.ok.injEq] at e
      subst e
      exact qinv_congr h rfl rfl

theorem reach_quiet {srv : Addr} {s : St} (h : Reach (step srv) (quiet srv) start s) : Inv s ∧ QInv srv s :=
  h.inv (P := fun s => Inv s ∧ QInv srv s) ⟨inv_start, ⟨by simp [start], by simp [start]⟩⟩
    (fun _ _ _ hi hp hs => ⟨inv_step hi.1 hp.1 hs, qinv_step hi.1 hi.2 hp hs⟩)

/-- A call of `receive` at address `a`. -/
def receivesAt (srv a : Addr) : Op → Bool
  | .clientReceive b _ => b == a
  | .serverReceive _ => srv == a
  | _ => false

theorem take_queue_ne {s s' : St} {a b : Addr} {n : Nat} (e : take s b n = .ok s') (h : a ≠ b) : s'.queue a = s.queue a := by
  unfold take at e
  split at e
  · cases e
  · simp only [Res.ok.injEq] at e
    subst e
    exact upd_ne _ _ h

theorem head_step {srv a : Addr} {s s' : St} {o : Op} (e : step srv s o = .ok s') (ho : receivesAt srv a o = false) :
    s.queue a <+: s'.queue a := by
  cases o with
  | clientSend b bs =>
    simp only [step, Res.ok.injEq] at e
    subst e
    obtain ⟨_, e2, _⟩ := settle_eq
      { emit { s with bound := upd s.bound b true } ⟨b, srv, bs⟩ with rets := s.rets ++ [(bs.length : Int)] } b (bs.length : Int)
    rw [e2]; exact List.prefix_refl _
  | clientSendFails b bs code =>
    simp only [step, Res.ok.injEq] at e
    subst e
    obtain ⟨_, e2, _⟩ := settle_eq { s with rets := s.rets ++ [-(code : Int)] } b (-(code : Int))
    rw [e2]; exact List.prefix_refl _
  | clientReceive b n =>
    simp only [step] at e
    split at e
    · rw [take_queue_ne e (by simp only [receivesAt, beq_eq_false_iff_ne] at ho; exact fun h => ho h.symm)]
      exact List.prefix_refl _
    · cases e
  | clientReceiveFails b n code =>
    simp only [step, Res.ok.injEq] at e
    subst e
    obtain ⟨_, e2, _⟩ := settle_eq { s with got := s.got ++ [⟨b, n, -(code : Int), [], 0⟩] } b (-(code : Int))
    rw [e2]; exact List.prefix_refl _
  | serverReceive n =>
    simp only [step] at e
    split at e
    · cases e
    · have := take_queue_ne e (a := a) (by simp only [receivesAt, beq_eq_false_iff_ne] at ho; exact fun h => ho h.symm)
      rw [this]
      exact List.prefix_refl _
  | serverSend bs =>
    simp only [step] at e
    split at e
    · cases e
    · simp only [Res.ok.injEq] at e
      subst e
      exact List.prefix_refl _
  | foreign p =>
    simp only [step, Res.ok.injEq] at e
    subst e
    exact List.prefix_refl _
  | carry k =>
    simp only [step] at e
    split at e
    · cases e
    · rename_i p _
      simp only [Res.ok.injEq] at e
      subst e
      by_cases h : a = p.dst
      · subst h
        show _ <+: upd s.queue p.dst (s.queue p.dst ++ [p]) p.dst
        rw [upd_self]
        exact List.prefix_append _ _
      · show _ <+: upd s.queue p.dst (s.queue p.dst ++ [p]) a
        rw [upd_ne _ _ h]
        exact List.prefix_refl _
  | lose k =>
    simp only [step, Res.ok.injEq] at e
    subst e
    exact List.prefix_refl _
  | double k =>
    simp only [step] at e
    split at e
    · cases e
    · simp only [Res.ok.injEq] at e
      subst e
      exact List.prefix_refl _

theorem head_run {srv a : Addr} : ∀ (os : List Op) {s s' : St}, runOps (step srv) s os = .ok s' →
    (∀ o ∈ os, receivesAt srv a o = false) → s.queue a <+: s'.queue a
  | [], s, s', h, _ => by
    simp only [runOps, Res.ok.injEq] at h; subst h; exact List.prefix_refl _
  | o :: os, s, s', h, ho => by
    simp only [runOps] at h
    cases hs : step srv s o with
    | ub => rw [hs] at h; cases h
    | loop => rw [hs] at h; cases h
    | ok u =>
      rw [hs] at h
      exact (head_step hs (ho o (List.mem_cons_self ..))).trans (head_run os h fun o ho' => ho o (List.mem_cons_of_mem _ ho'))

theorem receive_head {srv : Addr} {s : St} {a : Addr} {p : Pkt} {rest : List Pkt} {n : Nat} (hb : s.bound a = true)
    (hq : s.queue a = p :: rest) :
    step srv s (.clientReceive a n) = .ok { s with
      queue := upd s.queue a rest
      got := s.got ++ [⟨a, n, ((p.data.take n).length : Int), p.data.take n, p.src⟩] } := by
  simp only [step, hb, if_true, take, hq]

/-- A `receive` of `n` bytes at `a`, whoever is there. -/
def receiveAt (srv a : Addr) (n : Nat) : Op := if a = srv then .serverReceive n else .clientReceive a n

theorem receiveAt_head {srv : Addr} {s s' : St} {a : Addr} {p : Pkt} {rest : List Pkt} {n : Nat}
    (hq : s.queue a = p :: rest) (e : step srv s (receiveAt srv a n) = .ok s') :
    s'.got = s.got ++ [⟨a, n, ((p.data.take n).length : Int), p.data.take n, p.src⟩] ∧ s'.queue a = rest ∧ s'.sent = s.sent := by
  unfold receiveAt at e
  split at e
  · rename_i h
    subst h
    simp only [step, hq, take, Res.ok.injEq] at e
    subst e
    exact ⟨rfl, upd_self .., rfl⟩
  · simp only [step] at e
    split at e
    · simp only [take, hq, Res.ok.injEq] at e
      subst e
      exact ⟨rfl, upd_self .., rfl⟩
    · cases e

theorem deliver {srv : Addr} {s : St} {p : Pkt} {n : Nat} (hb : s.bound p.dst = true) (hq : s.queue p.dst = []) :
    runOps (step srv) (emit s p) [.carry s.flying.length, .clientReceive p.dst n] = .ok { s with
      flying := (s.flying ++ [p]).eraseIdx s.flying.length
      sent := s.sent ++ [p]
      queue := upd (upd s.queue p.dst [p]) p.dst []
      got := s.got ++ [⟨p.dst, n, ((p.data.take n).length : Int), p.data.take n, p.src⟩] } := by
  have h1 : step srv (emit s p) (.carry s.flying.length) = .ok { s with
      flying := (s.flying ++ [p]).eraseIdx s.flying.length
      sent := s.sent ++ [p]
      queue := upd s.queue p.dst [p] } := by
    have : (emit s p).flying[s.flying.length]? = some p := List.getElem?_concat_length
    simp only [step, this]
    simp only [emit, without, hq, List.nil_append]
  simp only [runOps, h1]
  rw [receive_head (p := p) (rest := [])]
  · exact hb
  · exact upd_self ..

end Flame.Dgram

namespace Flame
open Own Dgram

/-- **C172, one datagram each.** In every execution — datagrams lost, overtaken, doubled, strangers sending — each call of `receive` that did not
fail put into its range the beginning of one single datagram sent to that address, as much as fits, and returned the number of bytes; a call that
failed returned the negated code and no bytes. -/
theorem C172_one_datagram {srv : Addr} {s : St} (h : Reach (Dgram.step srv) (Dgram.pre srv) Dgram.start s) :
    ∀ g ∈ s.got, OneOf s.sent g ∨ (g.ret < 0 ∧ g.data = []) :=
  (Dgram.reach_inv h).got

/-- **C172, the size told by `wait` is enough.** Whatever happens between `wait` and the next `receive` at the same socket, a range of the size
`wait` returned gets the oldest datagram entirely, with nothing cut off. -/
theorem C172_wait_whole {srv a : Addr} {s s₁ s₂ : Dgram.St} {r : Int} {os : List Dgram.Op}
    (h : Reach (Dgram.step srv) (Dgram.pre srv) Dgram.start s) (hw : Dgram.wait s a = .ok r)
    (hr : runOps (Dgram.step srv) s os = .ok s₁) (ho : ∀ o ∈ os, receivesAt srv a o = false)
    (e : Dgram.step srv s₁ (receiveAt srv a r.toNat) = .ok s₂) :
    ∃ p ∈ s.sent, p.dst = a ∧ r = (p.data.length : Int) ∧ s₂.got = s₁.got ++ [⟨a, r.toNat, r, p.data, p.src⟩] := by
  unfold Dgram.wait at hw
  cases hq : s.queue a with
  | nil => rw [hq] at hw; cases hw
  | cons p rest =>
    rw [hq] at hw
    simp only [Res.ok.injEq] at hw
    obtain ⟨t, ht⟩ := head_run os hr ho
    rw [hq, List.cons_append] at ht
    have hp := (Dgram.reach_inv h).que a p (by rw [hq]; exact List.mem_cons_self ..)
    refine ⟨p, hp.1, hp.2, hw.symm, ?_⟩
    rw [(receiveAt_head ht.symm e).1, ← hw, Int.toNat_natCast, List.take_length]

/-- **C172, no truncation seen** fails: a datagram longer than the range is cut, the rest is gone for good, and the caller is told exactly what it
would be told of a datagram consisting of the part it got. -/
theorem C172_truncation_violated {srv a : Addr} {s s₁ : Dgram.St} {p : Pkt} {rest : List Pkt} {n : Nat} (hn : n < p.data.length)
    (hq : s.queue a = p :: rest) (e : Dgram.step srv s (receiveAt srv a n) = .ok s₁) :
    (∃ g, s₁.got = s.got ++ [g] ∧ g.ret = (n : Int) ∧ g.data = p.data.take n ∧ g.data ≠ p.data) ∧ s₁.queue a = rest ∧
      ∀ s' s₁' : Dgram.St, ∀ rest', s'.queue a = ⟨p.src, a, p.data.take n⟩ :: rest' → s'.got = s.got →
        Dgram.step srv s' (receiveAt srv a n) = .ok s₁' → s₁'.got = s₁.got := by
  obtain ⟨h1, h2, _⟩ := receiveAt_head hq e
  have hl : (p.data.take n).length = n := by rw [List.length_take]; omega
  refine ⟨⟨_, h1, ?_, rfl, ?_⟩, h2, ?_⟩
  · show ((p.data.take n).length : Int) = n
    rw [hl]
  · intro h
    have := congrArg List.length h
    simp only [hl] at this
    omega
  · intro s' s₁' rest' hq' hg e'
    rw [(receiveAt_head hq' e').1, h1, hg]
    simp only [List.take_take, Nat.min_self]

/-- **C172, replies.** When nobody else sends datagrams to them, everything a client receives was sent by its server to this client, after the client
had sent something to the server. -/
theorem C172_reply_partial {srv : Addr} {s : Dgram.St} (h : Reach (Dgram.step srv) (Dgram.quiet srv) Dgram.start s) {g : Got} (hg : g ∈ s.got)
    (h0 : 0 ≤ g.ret) (ha : g.at_ ≠ srv) :
    ∃ p ∈ s.sent, p.src = srv ∧ p.dst = g.at_ ∧ g.data = p.data.take g.room ∧ ∃ q ∈ s.sent, q.src = g.at_ ∧ q.dst = srv := by
  obtain ⟨hi, hq⟩ := Dgram.reach_quiet h
  rcases hi.got g hg with ⟨p, hp, hd, hs, hx, hr⟩ | hh
  · rcases hq.ends p hp with ⟨h1, _, q, hq1, hq2⟩ | hh
    · exact ⟨p, hp, h1, hd, hx, q, hq1, by rw [← hd]; exact hq2.1, hq2.2⟩
    · exact absurd (hd ▸ hh.2) ha
  · omega

/-- **C172, replies** fails with a stranger on the network: whatever state the library is in, any stranger's datagram is handed to a client that has
nothing waiting, and the caller gets the same value and the same bytes, and the object the same status, as for a reply of the server. -/
theorem C172_stranger_violated {srv a f : Addr} {s : Dgram.St} {b : Bytes} {n : Nat} (hb : s.bound a = true)
    (hq : s.queue a = []) (hp : s.peer = some a) :
    ∃ s₁ s₂ : Dgram.St,
      runOps (Dgram.step srv) s [.foreign ⟨f, a, b⟩, .carry s.flying.length, .clientReceive a n] = .ok s₁ ∧
      runOps (Dgram.step srv) s [.serverSend b, .carry s.flying.length, .clientReceive a n] = .ok s₂ ∧
      s₁.got = s.got ++ [⟨a, n, ((b.take n).length : Int), b.take n, f⟩] ∧
      s₂.got = s.got ++ [⟨a, n, ((b.take n).length : Int), b.take n, srv⟩] ∧
      s₁.status = s₂.status ∧ s₁.queue a = s₂.queue a := by
  have h1 := deliver (srv := srv) (s := s) (p := ⟨f, a, b⟩) (n := n) hb hq
  have h2 := deliver (srv := srv) (s := { s with rets := s.rets ++ [(b.length : Int)] }) (p := ⟨srv, a, b⟩) (n := n) hb hq
  have h3 : Dgram.step srv s (.serverSend b) = .ok (emit { s with rets := s.rets ++ [(b.length : Int)] } ⟨srv, a, b⟩) := by
    simp only [step, hp, emit]
  have h4 : runOps (Dgram.step srv) s [.serverSend b, .carry s.flying.length, .clientReceive a n] =
      runOps (Dgram.step srv) (emit { s with rets := s.rets ++ [(b.length : Int)] } ⟨srv, a, b⟩)
        [.carry s.flying.length, .clientReceive a n] := by
    rw [runOps, h3]
  refine ⟨_, _, h1, h4.trans h2, rfl, rfl, rfl, ?_⟩
  show upd _ a [] a = upd _ a [] a
  simp only [upd_self]

/-- **C172, two readers.** If another call takes the datagram after `wait`, the size is that of another datagram: the next one is cut whenever it is
longer. -/
theorem C172_two_readers_violated {srv a : Addr} {s s₁ s₂ : Dgram.St} {r : Int} {p q : Pkt} {rest : List Pkt} {m : Nat}
    (hw : Dgram.wait s a = .ok r) (hq : s.queue a = p :: q :: rest) (hl : p.data.length < q.data.length)
    (e1 : Dgram.step srv s (receiveAt srv a m) = .ok s₁) (e2 : Dgram.step srv s₁ (receiveAt srv a r.toNat) = .ok s₂) :
    ∃ g, s₂.got = s₁.got ++ [g] ∧ g.data = q.data.take p.data.length ∧ g.data ≠ q.data ∧ s₂.queue a = rest := by
  unfold Dgram.wait at hw
  rw [hq] at hw
  simp only [Res.ok.injEq] at hw
  obtain ⟨_, h2, _⟩ := receiveAt_head hq e1
  obtain ⟨h3, h4, _⟩ := receiveAt_head h2 e2
  refine ⟨_, h3, ?_, ?_, h4⟩
  · show q.data.take r.toNat = _
    rw [← hw, Int.toNat_natCast]
  · show q.data.take r.toNat ≠ _
    rw [← hw, Int.toNat_natCast]
    intro h
    have := congrArg List.length h
    rw [List.length_take] at this
    omega

/-- **C172, errors.** A failing native call makes the client's `send` and `receive` return the negated code, and leaves it in the status; a call
that succeeds leaves the status of an earlier failure there. -/
theorem C172_status {srv a : Addr} {s s₁ s₂ : Dgram.St} {b b' : Bytes} {code : Nat} (hc : code ≠ 0)
    (e1 : Dgram.step srv s (.clientSendFails a b code) = .ok s₁) (e2 : Dgram.step srv s₁ (.clientSend a b') = .ok s₂) :
    s₁.rets = s.rets ++ [-(code : Int)] ∧ s₁.status a = -(code : Int) ∧ s₁.sent = s.sent ∧
      s₂.rets = s₁.rets ++ [(b'.length : Int)] ∧ s₂.status a = -(code : Int) ∧ s₂.sent = s₁.sent ++ [⟨a, srv, b'⟩] := by
  have hn : -(code : Int) < 0 := by omega
  simp only [step, settle, hn, if_true, Res.ok.injEq] at e1
  subst e1
  have hb : ¬ ((b'.length : Int) < 0) := by omega
  simp only [step, settle, hb, if_false, Res.ok.injEq] at e2
  subst e2
  exact ⟨rfl, upd_self .., rfl, rfl, upd_self .., rfl⟩

/-! ## Concrete cases -/

/-- A round trip: the client at 7 asks, the server at 1 answers with three bytes, the answer is doubled, the client waits and receives. -/
def talk : List Dgram.Op :=
  [.clientSend 7 [1, 2], .carry 0, .serverReceive 16, .serverSend [3, 4, 5], .double 0, .carry 0, .clientReceive 7 3]

example : ∃ s, Reach (Dgram.step 1) (Dgram.quiet 1) Dgram.start s ∧ s.got = [⟨1, 16, 2, [1, 2], 7⟩, ⟨7, 3, 3, [3, 4, 5], 1⟩] ∧
    s.rets = [2, 3] := by
  obtain ⟨s, hs, he⟩ := Reach.witness (f := fun s : Dgram.St => (s.got, s.rets)) (step := Dgram.step 1) (pre := Dgram.quiet 1)
    (s₀ := Dgram.start) (os := talk) (b := ([⟨1, 16, 2, [1, 2], 7⟩, ⟨7, 3, 3, [3, 4, 5], 1⟩], [2, 3])) (by decide +kernel)
  simp only [Prod.mk.injEq] at he
  exact ⟨s, hs, he.1, he.2⟩

/-- A stranger's datagram and a cut one, both reachable. -/
example : ∃ s, Reach (Dgram.step 1) (Dgram.pre 1) Dgram.start s ∧
    s.got = [⟨1, 16, 2, [1, 2], 7⟩, ⟨7, 3, 1, [9], 4⟩, ⟨7, 2, 2, [3, 4], 1⟩] := by
  obtain ⟨s, hs, he⟩ := Reach.witness (f := fun s : Dgram.St => s.got) (step := Dgram.step 1) (pre := Dgram.pre 1)
    (s₀ := Dgram.start)
    (os := [.clientSend 7 [1, 2], .carry 0, .serverReceive 16, .serverSend [3, 4, 5], .foreign ⟨4, 7, [9]⟩, .carry 1, .clientReceive 7 3, .carry 0,
      .clientReceive 7 2])
    (b := [⟨1, 16, 2, [1, 2], 7⟩, ⟨7, 3, 1, [9], 4⟩, ⟨7, 2, 2, [3, 4], 1⟩]) (by decide +kernel)
  exact ⟨s, hs, he⟩

/-- `wait` says 3 with two datagrams waiting. -/
example : ∃ s, Reach (Dgram.step 1) (Dgram.pre 1) Dgram.start s ∧ Dgram.wait s 7 = .ok 3 ∧ (s.queue 7).length = 2 ∧ s.bound 7 = true ∧
    s.peer = some 7 := by
  obtain ⟨s, hs, he⟩ := Reach.witness (f := fun s : Dgram.St => (Dgram.wait s 7, (s.queue 7).length, s.bound 7, s.peer)) (step := Dgram.step 1)
    (pre := Dgram.pre 1) (s₀ := Dgram.start)
    (os := [.clientSend 7 [1, 2], .carry 0, .serverReceive 16, .serverSend [3, 4, 5], .serverSend [3, 4, 5, 6], .carry 0, .carry 0])
    (b := (.ok 3, 2, true, some 7)) (by decide +kernel)
  simp only [Prod.mk.injEq] at he
  exact ⟨s, hs, he.1, he.2.1, he.2.2.1, he.2.2.2⟩

/-! The theorems at a server 1 and a client 7 with two datagrams waiting for it. -/

def Dgram.exState : Dgram.St := visit (Dgram.step 1) (Dgram.pre 1) Dgram.start
  [.clientSend 7 [1, 2], .carry 0, .serverReceive 16, .serverSend [3, 4, 5], .serverSend [3, 4, 5, 6], .carry 0, .carry 0]

theorem Dgram.exState_reach : Reach (Dgram.step 1) (Dgram.pre 1) Dgram.start Dgram.exState := .visit _ (by decide +kernel)

example := C172_one_datagram Dgram.exState_reach
example := C172_wait_whole Dgram.exState_reach (a := 7) (r := 3) (os := [.clientSend 7 [9]]) rfl rfl (by decide) rfl
example := C172_truncation_violated (srv := 1) (a := 7) (s := Dgram.exState) (n := 2) (p := ⟨1, 7, [3, 4, 5]⟩) (by decide) rfl rfl
example := C172_reply_partial (.visit talk (by decide +kernel)) (srv := 1) (g := ⟨7, 3, 3, [3, 4, 5], 1⟩) (by decide +kernel) (by decide) (by decide)
example := C172_stranger_violated (srv := 1) (a := 7) (f := 4) (b := [8, 8]) (n := 5) (s := { Dgram.exState with queue := fun _ => [] }) rfl rfl rfl
example := C172_two_readers_violated (srv := 1) (a := 7) (s := Dgram.exState) (r := 3) (m := 3) rfl rfl (by decide) rfl rfl
example := C172_status (srv := 1) (a := 7) (s := Dgram.exState) (b := [1]) (b' := [2, 3]) (code := 5) (by decide) rfl rfl

end Flame
