import Verif.Net.Flow

/-!
# C150: what one end of a TCP connection sends, the other receives

The specification looks only at the calls: the ranges given to `send` with the values returned, and the bytes put into the ranges given to
`receive`.
-/

namespace Flame.Flow
open Own

/-- What a caller who looks at the returned values knows to have been taken: of each range the first `r` bytes if `r ≥ 0`. -/
def taken : List (List Byte × Int) → List Byte
  | [] => []
  | (bs, r) :: l => bs.take r.toNat ++ taken l

/-- What a caller who does not look believes to have sent: all ranges entirely. -/
def given : List (List Byte × Int) → List Byte
  | [] => []
  | (bs, _) :: l => bs ++ given l

/-- The values `receive` returned, added up (failures count nothing). -/
def amount : List (Nat × Int) → Nat
  | [] => 0
  | (_, r) :: l => r.toNat + amount l

theorem taken_append (l m : List (List Byte × Int)) : taken (l ++ m) = taken l ++ taken m := by
  induction l with
  | nil => rfl
  | cons x l ih => obtain ⟨bs, r⟩ := x; simp [taken, ih]

theorem amount_append (l m : List (Nat × Int)) : amount (l ++ m) = amount l + amount m := by
  induction l with
  | nil => simp [amount]
  | cons x l ih => obtain ⟨n, r⟩ := x; simp only [List.cons_append, amount, ih]; omega

theorem transfer_ok (n : Nat) (st : Int) : Tcp.transfer (.ok n) st = ((n : Int), st) := rfl

theorem transfer_err {c : Nat} (hc : c ≠ 0) (st : Int) : Tcp.transfer (.error c) st = (-1, -(c : Int)) := by
  have : -(c : Int) < 0 := by omega
  simp only [Tcp.transfer, if_pos this]

theorem neg_one_toNat : (-1 : Int).toNat = 0 := rfl

structure Inv (s : St) : Prop where
  order : s.received ++ (s.queue ++ s.wire) = taken s.sent
  count : amount s.got = s.received.length
  /-- a positive answer never exceeds the range -/
  fits : ∀ x ∈ s.got, x.2 ≤ (x.1 : Int)
  sfits : ∀ x ∈ s.sent, x.2 ≤ (x.1.length : Int)

theorem inv_step {dfl : Bool} {s s' : St} {o : Op} (h : Inv s) (hp : pre s o) (hs : step dfl s o = .ok s') : Inv s' := by
  obtain ⟨h1, h2, h3, h4⟩ := h
  cases o with
  | send bytes k =>
    simp only [step, transfer_ok, Res.ok.injEq] at hs
    subst hs
    refine ⟨?_, h2, h3, ?_⟩
    · simp only [taken_append, taken, Int.toNat_natCast, List.append_nil, ← h1, List.append_assoc]
    · intro x hx
      rcases List.mem_append.mp hx with hx | hx
      · exact h4 x hx
      · simp only [List.mem_singleton] at hx
        subst hx
        have := hp.2.1
        simp only
        omega
  | sendFails bytes code =>
    simp only [step] at hs
    split at hs
    · simp only [Res.ok.injEq] at hs
      subst hs
      exact ⟨h1, h2, h3, h4⟩
    · simp only [transfer_err hp.2, Res.ok.injEq] at hs
      subst hs
      refine ⟨?_, h2, h3, ?_⟩
      · simp only [taken_append, taken, neg_one_toNat, List.take_zero, List.append_nil, h1]
      · intro x hx
        rcases List.mem_append.mp hx with hx | hx
        · exact h4 x hx
        · simp only [List.mem_singleton] at hx
          subst hx
          simp only
          omega
  | carry k =>
    simp only [step, Res.ok.injEq] at hs
    subst hs
    refine ⟨?_, h2, h3, h4⟩
    simp only [List.append_assoc, List.take_append_drop, h1]
  | receive n =>
    simp only [step, transfer_ok, Res.ok.injEq] at hs
    subst hs
    refine ⟨?_, ?_, ?_, h4⟩
    · simp only [List.append_assoc, ← h1]
      rw [← List.append_assoc (s.queue.take n), List.take_append_drop]
    · simp only [amount_append, amount, Int.toNat_natCast, List.length_append, List.length_take, h2]
      omega
    · intro x hx
      rcases List.mem_append.mp hx with hx | hx
      · exact h3 x hx
      · simp only [List.mem_singleton] at hx
        subst hx
        simp only
        omega
  | receiveFails n code =>
    simp only [step, transfer_err hp, Res.ok.injEq] at hs
    subst hs
    refine ⟨h1, ?_, ?_, h4⟩
    · simp only [amount_append, amount, neg_one_toNat, h2]; rfl
    · intro x hx
      rcases List.mem_append.mp hx with hx | hx
      · exact h3 x hx
      · simp only [List.mem_singleton] at hx
        subst hx
        simp only
        omega
  | close =>
    simp only [step, Res.ok.injEq] at hs
    subst hs
    exact ⟨h1, h2, h3, h4⟩

theorem reach_inv {dfl : Bool} {s : St} (h : Reach (step dfl) pre start s) : Inv s :=
  h.inv ⟨rfl, rfl, by simp [start], by simp [start]⟩ (fun _ _ _ hi hp hs => inv_step hi hp hs)

/-- A sender who got every range accepted in full. -/
def FullSends (l : List (List Byte × Int)) : Prop := ∀ x ∈ l, x.2 = (x.1.length : Int)

theorem taken_full {l : List (List Byte × Int)} (h : FullSends l) : taken l = given l := by
  induction l with
  | nil => rfl
  | cons x l ih =>
    obtain ⟨bs, r⟩ := x
    have hr : r = (bs.length : Int) := h (bs, r) (by simp)
    subst hr
    simp only [taken, given, Int.toNat_natCast, List.take_length]
    rw [ih (fun x hx => h x (List.mem_cons_of_mem _ hx))]

theorem prefix_step (dfl : Bool) (s : St) : ∀ (os : List Op) (s' : St), runOps (step dfl) s os = .ok s' →
    s.sent <+: s'.sent
  | [], s', h => by
    simp only [runOps, Res.ok.injEq] at h; subst h; exact List.prefix_refl _
  | o :: os, s', h => by
    simp only [runOps] at h
    cases hs : step dfl s o with
    | ub => rw [hs] at h; cases h
    | loop => rw [hs] at h; cases h
    | ok u =>
      rw [hs] at h
      have h2 := prefix_step dfl u os s' h
      refine List.IsPrefix.trans ?_ h2
      cases o with
      | send bytes k => simp only [step, Res.ok.injEq] at hs; subst hs; exact List.prefix_append _ _
      | sendFails bytes code =>
        simp only [step] at hs
        split at hs <;> (simp only [Res.ok.injEq] at hs; subst hs)
        · exact List.prefix_refl _
        · exact List.prefix_append _ _
      | _ => simp only [step, Res.ok.injEq] at hs; subst hs; exact List.prefix_refl _

end Flame.Flow

namespace Flame
open Own Flow

/-- **C150, order.** In every execution the bytes handed to the reader are a beginning of the bytes the sender was told were taken, in order,
none lost, doubled or changed; the values `receive` returned add up to their number; no answer exceeds its range. -/
theorem C150_in_order {dfl : Bool} {s : St} (h : Reach (step dfl) pre start s) :
    s.received <+: taken s.sent ∧ amount s.got = s.received.length ∧ (∀ x ∈ s.got, x.2 ≤ (x.1 : Int)) ∧
      ∀ x ∈ s.sent, x.2 ≤ (x.1.length : Int) :=
  have hi := reach_inv h
  ⟨⟨_, hi.order⟩, hi.count, hi.fits, hi.sfits⟩

/-- **C150, everything.** When `receive` into a non-empty range returns 0, the reader has all bytes the sender was told were taken. -/
theorem C150_end_of_data {dfl : Bool} {s s' : St} (h : Reach (step dfl) pre start s) {n : Nat} (hn : n ≠ 0)
    (hp : pre s (.receive n)) (hs : step dfl s (.receive n) = .ok s') (h0 : s'.got.getLast? = some (n, 0)) :
    s'.received = taken s'.sent ∧ s.isOpen = false := by
  have hi := reach_inv h
  simp only [step, transfer_ok, Res.ok.injEq] at hs
  subst hs
  simp only [List.getLast?_append, List.getLast?_singleton, Option.some_or, Option.some.injEq, Prod.mk.injEq, true_and] at h0
  have hq : s.queue = [] := by
    cases hq : s.queue with
    | nil => rfl
    | cons a l => rw [hq] at h0; simp only [List.length_cons] at h0; omega
  rcases hp with hp | hp | ⟨hp, hw⟩
  · exact absurd hq hp
  · exact absurd hp hn
  · refine ⟨?_, hp⟩
    have := hi.order
    simp only [hq, hw, List.append_nil] at this
    simp only [hq, List.take_nil, List.append_nil, this]

/-- **C150, whole ranges.** If every `send` returned the size of its range, the bytes received are a beginning of the ranges given, one after
another. -/
theorem C150_full_sends_partial {dfl : Bool} {s : St} (h : Reach (step dfl) pre start s) (hf : FullSends s.sent) :
    s.received <+: given s.sent := by
  rw [← taken_full hf]
  exact (C150_in_order h).1

/-- **C150 fails for a sender who only looks at the status.** However an execution went so far, the next range of two bytes or more may be taken
in part: the value returned is smaller, the status is what it was, and a sender who goes on with the next range leaves a gap; the bytes that
will be received no longer are a beginning of the ranges given, whatever is sent afterwards. -/
theorem C150_short_send_violated {dfl : Bool} {s : St} (h : Reach (step dfl) pre start s) (hopen : s.isOpen = true) (hf : FullSends s.sent)
    (a b c : Byte) (rest : List Byte) (hbc : b ≠ c) :
    ∃ s', Reach (step dfl) pre start s' ∧ s'.statusW = s.statusW ∧
      s'.sent = s.sent ++ [(a :: b :: rest, 1), ([c], 1)] ∧
      ∀ os s'', runOps (step dfl) s' os = .ok s'' → Reach (step dfl) pre start s'' → s''.queue = [] → s''.wire = [] →
        ¬ s''.received <+: given s''.sent := by
  let u : St := { s with wire := s.wire ++ [a], sent := s.sent ++ [(a :: b :: rest, 1)] }
  let v : St := { u with wire := u.wire ++ [c], sent := u.sent ++ [([c], 1)] }
  have hu : Reach (step dfl) pre start u :=
    .step h (o := .send (a :: b :: rest) 1) ⟨hopen, by simp, by simp⟩ (by simp [step, transfer_ok, u])
  have hv : Reach (step dfl) pre start v :=
    .step hu (o := .send [c] 1) ⟨hopen, by simp, by simp⟩ (by simp [step, transfer_ok, v, u])
  refine ⟨v, hv, rfl, by simp [v, u], ?_⟩
  intro os s'' hr hreach hq hw hpre
  have hord := (reach_inv hreach).order
  rw [hq, hw, List.append_nil, List.append_nil] at hord
  obtain ⟨t, ht⟩ := prefix_step dfl v os s'' hr
  have hsent : s''.sent = s.sent ++ ((a :: b :: rest, 1) :: ([c], 1) :: t) := by rw [← ht]; simp [v, u]
  rw [hord, hsent, taken_append, taken_full hf] at hpre
  have hg : ∀ l m : List (List Byte × Int), given (l ++ m) = given l ++ given m := by
    intro l m
    induction l with
    | nil => rfl
    | cons x l ih => obtain ⟨bs, r⟩ := x; simp [given, ih]
  rw [hg, List.prefix_append_right_inj] at hpre
  have h1 : (1 : Int).toNat = 1 := rfl
  simp only [taken, given, h1, List.take_succ_cons, List.take_zero, List.cons_append, List.nil_append, List.cons_prefix_cons,
    true_and] at hpre
  exact hbc hpre.1.symm

/-- **C150 fails, an empty range.** `receive` into an empty range returns 0 at any time, the same answer as at the end of the data. -/
theorem C150_empty_range_says_end (dfl : Bool) (s : St) :
    pre s (.receive 0) ∧ step dfl s (.receive 0) = .ok { s with got := s.got ++ [(0, 0)] } := by
  refine ⟨.inr (.inl rfl), ?_⟩
  simp [step, transfer_ok]

/-- **C150, counting.** After `numberBytesToRead` answered `m`, and whatever else happens than calls of `receive`, a `receive` into a range of
`m` bytes gets exactly `m`. -/
theorem C150_counted {dfl : Bool} {s : St} (os : List Op) (hos : ∀ o ∈ os, (∀ n, o ≠ .receive n)) {s₁ s₂ : St}
    (hr : runOps (step dfl) s os = .ok s₁) {m : Nat} (hm : numberBytesToRead s = (m : Int))
    (h2 : step dfl s₁ (.receive m) = .ok s₂) :
    s₂.received = s₁.received ++ s.queue ∧ s₂.got = s₁.got ++ [(m, (m : Int))] := by
  have key : ∀ (os : List Op) (s s₁ : St), (∀ o ∈ os, (∀ n, o ≠ .receive n)) → runOps (step dfl) s os = .ok s₁ →
      s.queue <+: s₁.queue := by
    intro os
    induction os with
    | nil => intro s s₁ _ h; simp only [runOps, Res.ok.injEq] at h; subst h; exact List.prefix_refl _
    | cons o os ih =>
      intro s s₁ ho h
      simp only [runOps] at h
      cases hs : step dfl s o with
      | ub => rw [hs] at h; cases h
      | loop => rw [hs] at h; cases h
      | ok u =>
        rw [hs] at h
        refine List.IsPrefix.trans ?_ (ih u s₁ (fun x hx => ho x (List.mem_cons_of_mem _ hx)) h)
        cases o with
        | carry k => simp only [step, Res.ok.injEq] at hs; subst hs; exact List.prefix_append _ _
        | receive n => exact absurd rfl (ho (.receive n) (by simp) n)
        | sendFails bytes code =>
          simp only [step] at hs
          split at hs <;> (simp only [Res.ok.injEq] at hs; subst hs; exact List.prefix_refl _)
        | _ => simp only [step, Res.ok.injEq] at hs; subst hs; exact List.prefix_refl _
  obtain ⟨t, ht⟩ := key os s s₁ hos hr
  have hm' : s.queue.length = m := by simp only [numberBytesToRead] at hm; omega
  simp only [step, transfer_ok, Res.ok.injEq] at h2
  subst h2
  simp only [← ht, List.length_append]
  refine ⟨?_, ?_⟩
  · rw [← hm']; simp
  · rw [Nat.min_eq_left (by omega)]

/-- **C150, failures.** A failure of the system is returned as −1 with the negated code as the status, except that EPIPE ends a process that
left SIGPIPE at its default: `send` does not return and no status is set. -/
theorem C150_failure_exact (dfl : Bool) (s : St) (bytes : List Byte) {code : Nat} (hc : code ≠ 0) :
    ∃ s', step dfl s (.sendFails bytes code) = .ok s' ∧
      ((dfl = true ∧ code = 32) → s'.dead = true ∧ s'.sent = s.sent ∧ s'.statusW = s.statusW) ∧
      (¬ (dfl = true ∧ code = 32) → s'.dead = s.dead ∧ s'.sent = s.sent ++ [(bytes, -1)] ∧ s'.statusW = -(code : Int)) := by
  by_cases hk : dfl = true ∧ code = 32
  · obtain ⟨h1, h2⟩ := hk
    subst h1; subst h2
    exact ⟨{ s with dead := true, isOpen := false }, by simp [step, killed, EPIPE, noSignalFlag], by simp, by simp⟩
  · refine ⟨{ s with sent := s.sent ++ [(bytes, -1)], statusW := -(code : Int) }, ?_, fun h => absurd h hk, fun _ => ⟨rfl, rfl, rfl⟩⟩
    have : killed dfl code = false := by
      cases dfl
      · rfl
      · have : code ≠ 32 := fun e => hk ⟨rfl, e⟩
        simp [killed, EPIPE, this]
    simp [step, this, transfer_err hc]

/-- **C150, the status tells.** In every execution the status of each end is success as long as none of its calls failed; after a failure it is
negative, whatever succeeds afterwards. -/
theorem C150_status {dfl : Bool} {s : St} (h : Reach (step dfl) pre start s) :
    (s.statusW ≤ 0 ∧ s.statusR ≤ 0) ∧ (s.statusW = 0 ↔ ∀ x ∈ s.sent, 0 ≤ x.2) ∧ (s.statusR = 0 ↔ ∀ x ∈ s.got, 0 ≤ x.2) := by
  refine h.inv (P := fun s => (s.statusW ≤ 0 ∧ s.statusR ≤ 0) ∧ (s.statusW = 0 ↔ ∀ x ∈ s.sent, 0 ≤ x.2) ∧
    (s.statusR = 0 ↔ ∀ x ∈ s.got, 0 ≤ x.2)) (by simp [start]) ?_
  intro s o s' ⟨h1, h2, h3⟩ hp hs
  cases o with
  | send bytes k =>
    simp only [step, transfer_ok, Res.ok.injEq] at hs
    subst hs
    refine ⟨h1, ?_, h3⟩
    simp only [h2, List.mem_append, List.mem_singleton]
    exact ⟨fun hh x hx => hx.elim (hh x) (fun e => by subst e; simp), fun hh x hx => hh x (.inl hx)⟩
  | sendFails bytes code =>
    simp only [step] at hs
    split at hs
    · simp only [Res.ok.injEq] at hs; subst hs; exact ⟨h1, h2, h3⟩
    · have hc := hp.2
      simp only [transfer_err hc, Res.ok.injEq] at hs
      subst hs
      refine ⟨⟨by simp, h1.2⟩, ?_, h3⟩
      simp only
      constructor
      · intro e; omega
      · intro hh
        have := hh (bytes, -1) (by simp)
        simp at this
  | carry k => simp only [step, Res.ok.injEq] at hs; subst hs; exact ⟨h1, h2, h3⟩
  | receive n =>
    simp only [step, transfer_ok, Res.ok.injEq] at hs
    subst hs
    refine ⟨h1, h2, ?_⟩
    simp only [h3, List.mem_append, List.mem_singleton]
    exact ⟨fun hh x hx => hx.elim (hh x) (fun e => by subst e; simp only; omega), fun hh x hx => hh x (.inl hx)⟩
  | receiveFails n code =>
    have hc : code ≠ 0 := hp
    simp only [step, transfer_err hc, Res.ok.injEq] at hs
    subst hs
    refine ⟨⟨h1.1, by simp⟩, h2, ?_⟩
    simp only
    constructor
    · intro e; omega
    · intro hh
      have := hh (n, -1) (by simp)
      simp at this
  | close => simp only [step, Res.ok.injEq] at hs; subst hs; exact ⟨h1, h2, h3⟩

/-- **C150, the sender survives** every execution exactly if SIGPIPE is not at its default: otherwise a connection the peer has closed ends it. -/
theorem C150_survives_iff (dfl : Bool) :
    (∀ s, Reach (step dfl) pre start s → s.dead = false) ↔ dfl = false := by
  constructor
  · intro h
    cases dfl with
    | false => rfl
    | true =>
      have hr : Reach (step true) pre start { start with dead := true, isOpen := false } :=
        .step .start (o := .sendFails [1] 32) ⟨rfl, by decide⟩ rfl
      have := h _ hr
      simp at this
  · intro hd s hr
    subst hd
    refine hr.inv (P := fun s => s.dead = false) rfl ?_
    intro s o s' hi _ hs
    cases o with
    | sendFails bytes code =>
      simp only [step, killed, Bool.false_and, Bool.false_eq_true, if_false, Res.ok.injEq] at hs
      subst hs
      exact hi
    | _ => simp only [step, Res.ok.injEq] at hs; subst hs; exact hi

/-- Two ranges, the second taken in part, both read in three pieces up to the end. -/
example : ∃ s, Reach (step true) pre start s ∧
    (s.received, s.sent, s.got, s.statusW) =
      ([1, 2, 3, 4], [([1, 2, 3], 3), ([4, 5], 1)], [(2, 2), (9, 1), (9, 1), (9, 0)], 0) :=
  Reach.witness [.send [1, 2, 3] 3, .carry 2, .receive 2, .carry 1, .send [4, 5] 1, .receive 9, .carry 5, .receive 9, .close, .receive 9]
    _ _ rfl

example : ∃ s, Reach (step false) pre start s ∧ (s.sent, s.got, s.statusW, s.statusR) = ([([1], -1), ([2], 1)], [(4, -1), (4, 1)], -32, -104) :=
  Reach.witness [.sendFails [1] 32, .receiveFails 4 104, .send [2] 1, .carry 1, .receive 4] _ _ rfl

example : FullSends [([1, 2], 2), ([], 0)] := by simp [FullSends]

/-! The theorems at concrete conversations. -/

theorem Flow.exShort : Reach (step true) pre start (visit (step true) pre start [.send [1, 2, 3] 3, .carry 2, .receive 2, .carry 1, .send [4, 5] 1]) :=
  .visit _ rfl

theorem Flow.exFull : Reach (step true) pre start (visit (step true) pre start [.send [1, 2, 3] 3, .carry 2, .receive 2]) := .visit _ rfl

theorem Flow.exFull_sends : FullSends (visit (step true) pre start [.send [1, 2, 3] 3, .carry 2, .receive 2]).sent := by
  show FullSends [([1, 2, 3], 3)]
  simp [FullSends]

theorem Flow.exClosed : Reach (step true) pre start (visit (step true) pre start [.send [1, 2, 3] 3, .carry 3, .receive 9, .close]) := .visit _ rfl

example := C150_in_order Flow.exShort
example := C150_end_of_data Flow.exClosed (n := 9) (by decide) (by decide) rfl rfl
example := C150_full_sends_partial Flow.exFull Flow.exFull_sends
example := C150_short_send_violated Flow.exFull rfl Flow.exFull_sends 4 5 6 [7] (by decide)
example := C150_counted (dfl := true) (s := visit (step true) pre start [.send [1, 2, 3] 3, .carry 2]) [.carry 1, .send [9] 1] (by simp) rfl (m := 2) rfl rfl
example := C150_failure_exact true (visit (step true) pre start [.send [1, 2, 3] 3, .carry 2]) [4] (code := 32) (by decide)
example := C150_status Flow.exShort

end Flame
