import Verif.Conc.Registrar
import Verif.Conc.QueueProps

/-!
# C37 — events of every kind are delivered once, in order

The ideal: one list per kind.
-/

namespace Flame
open Conc Conc.Queue Conc.Registrar

namespace Ideal

abbrev Lists := (k : Kind) → List (Val k)

def set (a : Lists) (k : Kind) (l : List (Val k)) : Lists := fun j => if h : j = k then h ▸ l else a j

/-- What remains in a queue after `clear`: nothing, unless an invalid value was pushed. -/
def cleared (k : Kind) (l : List (Val k)) : List (Val k) := (l.dropWhile (valid k)).tail

def step (cap : Kind → Nat) (a : Lists) : Registrar.Op → Lists × Out
  | .add _ => (a, .nothing)
  | .push k v => if (a k).length = cap k then (a, .pushed false) else (set a k (a k ++ [v]), .pushed true)
  | .event k v => if (a k).length = cap k then (a, .nothing) else (set a k (a k ++ [v]), .nothing)
  | .pop k => match a k with
    | [] => (a, .popped k (invalid k))
    | v :: l => (set a k l, .popped k v)
  | .clear => (fun k => cleared k (a k), .nothing)

def run (cap : Kind → Nat) : Lists → List Registrar.Op → Lists × List Out
  | a, [] => (a, [])
  | a, o :: os => ((run cap (step cap a o).1 os).1, (step cap a o).2 :: (run cap (step cap a o).1 os).2)

end Ideal

/-- Values of a kind are pushed, and events of a kind arrive, only after `add` for that kind (`added`). -/
def addedFirst : (Kind → Bool) → List Registrar.Op → Prop
  | _, [] => True
  | ad, .add k :: os => addedFirst (fun j => ad j || decide (j = k)) os
  | ad, .push k _ :: os => ad k = true ∧ addedFirst ad os
  | ad, .event k _ :: os => ad k = true ∧ addedFirst ad os
  | ad, .pop _ :: os => addedFirst ad os
  | ad, .clear :: os => addedFirst ad os

namespace RegistrarLemmas
open QueueLemmas

variable {cap : Kind → Nat}

@[simp] theorem setQ_self (r : Queues) (k : Kind) (q : Q (Val k)) : setQ r k q k = q := by simp [setQ]
theorem setQ_ne (r : Queues) {k j : Kind} (q : Q (Val k)) (h : j ≠ k) : setQ r k q j = r j := by simp [setQ, h]
@[simp] theorem set_self (a : Ideal.Lists) (k : Kind) (l : List (Val k)) : Ideal.set a k l k = l := by simp [Ideal.set]
theorem set_ne (a : Ideal.Lists) {k j : Kind} (l : List (Val k)) (h : j ≠ k) : Ideal.set a k l j = a j := by
  simp [Ideal.set, h]

/-- The queue of kind `k` holds `l`. -/
def Holds (cap : Kind → Nat) (k : Kind) (q : Q (Val k)) (l : List (Val k)) (ad : Bool) : Prop :=
  (ad = true ∧ Ok (cap k) q ∧ content (cap k) q = l) ∨ (ad = false ∧ q = Q.fresh ∧ l = [])

theorem call_spec {k : Kind} {r : Queues} (h : Ok (cap k) (r k)) {o : Queue.Op (Val k)} (ho : notInit o) :
    ∃ q x, call cap r k o = .ok (setQ r k q, x) ∧ Ok (cap k) q ∧
      fifo (cap k) (content (cap k) (r k)) o = (content (cap k) q, x) := by
  have hf : (refines (Val k) (cap k)).left ((Queue.obj (cap k)).enter o) < 8 := by
    cases o <;> simp [refines, Queue.obj]
  obtain ⟨q, x, h1, h2, h3⟩ := (refines (Val k) (cap k)).exec ho h hf
  exact ⟨q, x, by simp [call, h1], h2, h3⟩

theorem add_spec {k : Kind} {r : Queues} {l : List (Val k)} {ad : Bool} (hc : 0 < cap k)
    (h : Holds cap k (r k) l ad) :
    ∃ q, add cap r k = .ok (setQ r k q) ∧ Holds cap k q l true := by
  rcases h with ⟨_, h1, h2⟩ | ⟨_, h1, h2⟩
  · obtain ⟨q, x, e1, e2, e3⟩ := call_spec h1 (o := .test) trivial
    simp only [fifo, Prod.mk.injEq] at e3
    obtain ⟨e3, e4⟩ := e3
    refine ⟨q, ?_, .inl ⟨rfl, e2, e3 ▸ h2⟩⟩
    simp [add, e1, ← e4]
  · have e1 : call cap r k .test = .ok (setQ r k Q.fresh, .bool false) := by
      simp [call, h1, Queue.obj, Obj.exec, Q.fresh]
    have e2 : call cap (setQ r k Q.fresh) k (.init (invalid k)) =
        .ok (setQ (setQ r k Q.fresh) k (Q.inited (cap k) (invalid k)), .bool true) := by
      simp [call, Queue.obj, Obj.exec, Q.fresh, Q.inited]
    have e3 : ∀ q q' : Q (Val k), setQ (setQ r k q) k q' = setQ r k q' := by
      intro q q'
      funext j
      by_cases hj : j = k
      · subst hj; simp
      · simp [setQ_ne _ _ hj]
    refine ⟨Q.inited (cap k) (invalid k), ?_, .inl ⟨rfl, ok_inited hc _, ?_⟩⟩
    · simp [add, e1, e2, e3]
    · rw [h2]; rfl

theorem push_spec {k : Kind} {r : Queues} {l : List (Val k)} (h : Holds cap k (r k) l true) (v : Val k) :
    ∃ q, push cap r k v = .ok (setQ r k q, !decide (l.length = cap k)) ∧
      Holds cap k q (if l.length = cap k then l else l ++ [v]) true := by
  rcases h with ⟨_, h1, h2⟩ | ⟨h, _⟩
  · obtain ⟨q, x, e1, e2, e3⟩ := call_spec h1 (o := .push v) trivial
    rw [h2] at e3
    refine ⟨q, ?_, .inl ⟨rfl, e2, ?_⟩⟩
    · by_cases hl : l.length = cap k
      · simp only [fifo, hl, if_pos, Prod.mk.injEq] at e3
        simp [push, e1, ← e3.2, hl]
      · simp only [fifo, hl, if_neg, Prod.mk.injEq, ite_false] at e3
        simp [push, e1, ← e3.2, hl]
    · by_cases hl : l.length = cap k
      · simp only [fifo, hl, if_pos, Prod.mk.injEq] at e3
        simp [← e3.1, hl]
      · simp only [fifo, hl, Prod.mk.injEq, ite_false] at e3
        simp [← e3.1, hl]
  · cases h

theorem pop_spec {k : Kind} {r : Queues} {l : List (Val k)} {ad : Bool} (h : Holds cap k (r k) l ad) :
    ∃ q, pop cap r k = .ok (setQ r k q, l.headD (invalid k)) ∧ Holds cap k q l.tail ad := by
  rcases h with ⟨h0, h1, h2⟩ | ⟨h0, h1, h2⟩
  · obtain ⟨q, x, e1, e2, e3⟩ := call_spec h1 (o := .pop (invalid k)) trivial
    rw [h2] at e3
    refine ⟨q, ?_, .inl ⟨h0, e2, ?_⟩⟩
    · cases l with
      | nil =>
        simp only [fifo, Prod.mk.injEq] at e3
        simp [pop, e1, ← e3.2]
      | cons v l =>
        simp only [fifo, Prod.mk.injEq] at e3
        simp [pop, e1, ← e3.2]
    · cases l with
      | nil => simp only [fifo, Prod.mk.injEq] at e3; simp [← e3.1]
      | cons v l => simp only [fifo, Prod.mk.injEq] at e3; simp [← e3.1]
  · subst h2
    refine ⟨Q.fresh, ?_, .inr ⟨h0, rfl, rfl⟩⟩
    simp [pop, call, h1, Queue.obj, Obj.exec, Q.fresh]

theorem valid_invalid (k : Kind) : valid k (invalid k) = false := by cases k <;> rfl

theorem setQ_setQ (r : Queues) (k : Kind) (q q' : Q (Val k)) : setQ (setQ r k q) k q' = setQ r k q' := by
  funext j
  by_cases hj : j = k
  · subst hj; simp
  · simp [setQ_ne _ _ hj]

theorem drain_spec {k : Kind} {l : List (Val k)} {ad : Bool} : ∀ {r : Queues} {f : Nat}, Holds cap k (r k) l ad →
    l.length < f → ∃ q, drain cap k f r = .ok (setQ r k q) ∧ Holds cap k q (Ideal.cleared k l) ad := by
  induction l with
  | nil =>
    intro r f h hf
    obtain ⟨f, rfl⟩ : ∃ g, f = g + 1 := ⟨f - 1, by simp at hf; omega⟩
    obtain ⟨q, e1, e2⟩ := pop_spec h
    refine ⟨q, ?_, e2⟩
    simp [drain, e1, valid_invalid]
  | cons v l ih =>
    intro r f h hf
    obtain ⟨f, rfl⟩ : ∃ g, f = g + 1 := ⟨f - 1, by simp at hf; omega⟩
    obtain ⟨q, e1, e2⟩ := pop_spec h
    simp only [List.headD_cons] at e1
    by_cases hv : valid k v = true
    · obtain ⟨q', e3, e4⟩ := ih (r := setQ r k q) (f := f) (by simpa using e2) (by simp at hf; omega)
      refine ⟨q', ?_, ?_⟩
      · simp only [drain, e1, hv, if_true, e3, setQ_setQ]
      · simpa [Ideal.cleared, List.dropWhile_cons, hv] using e4
    · refine ⟨q, ?_, ?_⟩
      · simp [drain, e1, hv]
      · simpa [Ideal.cleared, List.dropWhile_cons, hv] using e2

/-- All queues. -/
def Agree (cap : Kind → Nat) (r : Queues) (a : Ideal.Lists) (ad : Kind → Bool) : Prop :=
  ∀ k, Holds cap k (r k) (a k) (ad k)

theorem Agree.setQ {r : Queues} {a : Ideal.Lists} {ad : Kind → Bool} (h : Agree cap r a ad) {k : Kind}
    {q : Q (Val k)} {l : List (Val k)} (hq : Holds cap k q l (ad k)) : Agree cap (setQ r k q) (Ideal.set a k l) ad := by
  intro j
  by_cases hj : j = k
  · subst hj; simpa using hq
  · simpa [setQ_ne _ _ hj, set_ne _ _ hj] using h j

theorem set_id (a : Ideal.Lists) (k : Kind) : Ideal.set a k (a k) = a := by
  funext j
  by_cases hj : j = k
  · subst hj; simp
  · simp [set_ne _ _ hj]

theorem holds_count {k : Kind} {q : Q (Val k)} {l : List (Val k)} {ad : Bool} (h : Holds cap k q l ad) :
    l.length = q.count := by
  rcases h with ⟨_, h1, h2⟩ | ⟨_, h1, h2⟩
  · rw [← h2]; exact content_length h1
  · subst h1; subst h2; rfl

theorem clear_spec {r : Queues} {a : Ideal.Lists} {ad : Kind → Bool} (h : Agree cap r a ad) {f : Nat}
    (hf : ∀ k, (r k).count < f) :
    ∃ r', Registrar.clear cap f r = .ok r' ∧ Agree cap r' (fun k => Ideal.cleared k (a k)) ad := by
  have hlen : ∀ k, (a k).length < f := fun k => by rw [holds_count (h k)]; exact hf k
  obtain ⟨q1, d1, g1⟩ := drain_spec (h .udpServer) (hlen _)
  obtain ⟨q2, d2, g2⟩ := drain_spec (r := setQ r .udpServer q1) (k := .udpClient)
    (by rw [setQ_ne _ _ (by decide)]; exact h .udpClient) (hlen _)
  obtain ⟨q3, d3, g3⟩ := drain_spec (r := setQ (setQ r .udpServer q1) .udpClient q2) (k := .accepted)
    (by rw [setQ_ne _ _ (by decide), setQ_ne _ _ (by decide)]; exact h .accepted) (hlen _)
  obtain ⟨q4, d4, g4⟩ := drain_spec (r := setQ (setQ (setQ r .udpServer q1) .udpClient q2) .accepted q3)
    (k := .tcpServer)
    (by rw [setQ_ne _ _ (by decide), setQ_ne _ _ (by decide), setQ_ne _ _ (by decide)]; exact h .tcpServer) (hlen _)
  obtain ⟨q5, d5, g5⟩ := drain_spec
    (r := setQ (setQ (setQ (setQ r .udpServer q1) .udpClient q2) .accepted q3) .tcpServer q4) (k := .tcpClient)
    (by rw [setQ_ne _ _ (by decide), setQ_ne _ _ (by decide), setQ_ne _ _ (by decide), setQ_ne _ _ (by decide)]
        exact h .tcpClient) (hlen _)
  refine ⟨_, by simp only [Registrar.clear, d1, d2, d3, d4, d5, Res.ok_bind]; rfl, ?_⟩
  intro k
  cases k
  · rw [setQ_ne _ _ (by decide), setQ_ne _ _ (by decide), setQ_ne _ _ (by decide), setQ_ne _ _ (by decide), setQ_self]
    exact g1
  · rw [setQ_ne _ _ (by decide), setQ_ne _ _ (by decide), setQ_ne _ _ (by decide), setQ_self]
    exact g2
  · rw [setQ_ne _ _ (by decide), setQ_ne _ _ (by decide), setQ_self]
    exact g3
  · rw [setQ_ne _ _ (by decide), setQ_self]
    exact g4
  · rw [setQ_self]
    exact g5

theorem run_spec (hc : ∀ k, 0 < cap k) {os : List Registrar.Op} : ∀ {r : Queues} {a : Ideal.Lists} {ad : Kind → Bool},
    Agree cap r a ad → addedFirst ad os →
    ∃ r' ad', Registrar.run cap r os = .ok (r', (Ideal.run cap a os).2) ∧ Agree cap r' (Ideal.run cap a os).1 ad' := by
  induction os with
  | nil => intro r a ad h _; exact ⟨r, ad, rfl, h⟩
  | cons o os ih =>
    intro r a ad h ha
    suffices H : ∃ r1 ad1, Registrar.step cap r o = .ok (r1, (Ideal.step cap a o).2) ∧
        Agree cap r1 (Ideal.step cap a o).1 ad1 ∧ addedFirst ad1 os by
      obtain ⟨r1, ad1, h1, h2, h3⟩ := H
      obtain ⟨r2, ad2, h4, h5⟩ := ih h2 h3
      exact ⟨r2, ad2, by simp [Registrar.run, h1, h4, Res.bind, Ideal.run], h5⟩
    cases o with
    | add k =>
      obtain ⟨q, e1, e2⟩ := add_spec (hc k) (h k)
      refine ⟨setQ r k q, _, by simp [Registrar.step, e1, Res.bind, Ideal.step], ?_, ha⟩
      intro j
      by_cases hj : j = k
      · subst hj; simpa [Ideal.step] using e2
      · simpa [setQ_ne _ _ hj, Ideal.step, hj] using h j
    | push k v =>
      obtain ⟨hk, ha⟩ := ha
      have hh := h k
      rw [hk] at hh
      obtain ⟨q, e1, e2⟩ := push_spec hh v
      refine ⟨setQ r k q, ad, ?_, ?_, ha⟩
      · simp only [Registrar.step, e1, Res.bind, Ideal.step]
        split <;> simp [*]
      · have := h.setQ (k := k) (q := q) (l := if (a k).length = cap k then a k else a k ++ [v]) (by rw [hk]; exact e2)
        simp only [Ideal.step]
        split
        · rename_i hl
          rw [if_pos hl, set_id] at this
          exact this
        · rename_i hl
          rw [if_neg hl] at this
          exact this
    | event k v =>
      obtain ⟨hk, ha⟩ := ha
      have hh := h k
      rw [hk] at hh
      obtain ⟨q, e1, e2⟩ := push_spec hh v
      refine ⟨setQ r k q, ad, ?_, ?_, ha⟩
      · simp only [Registrar.step, event, e1, Res.bind, Ideal.step]
        split <;> simp [*]
      · have := h.setQ (k := k) (q := q) (l := if (a k).length = cap k then a k else a k ++ [v]) (by rw [hk]; exact e2)
        simp only [Ideal.step]
        split
        · rename_i hl
          rw [if_pos hl, set_id] at this
          exact this
        · rename_i hl
          rw [if_neg hl] at this
          exact this
    | pop k =>
      obtain ⟨q, e1, e2⟩ := pop_spec (h k)
      refine ⟨setQ r k q, ad, ?_, ?_, ha⟩
      · simp only [Registrar.step, e1, Res.bind, Ideal.step]
        cases a k <;> simp
      · have := h.setQ (k := k) e2
        simp only [Ideal.step]
        cases ea : a k with
        | nil =>
          rw [ea] at this
          have h2 := set_id a k
          rw [ea] at h2
          simpa [h2] using this
        | cons v l =>
          rw [ea] at this
          exact this
    | clear =>
      obtain ⟨r', e1, e2⟩ := clear_spec h (f := (r .udpServer).count + (r .udpClient).count + (r .accepted).count +
        (r .tcpServer).count + (r .tcpClient).count + 1) (by intro k; cases k <;> omega)
      exact ⟨r', ad, by simp [Registrar.step, e1, Res.bind, Ideal.step], e2, ha⟩

end RegistrarLemmas
open RegistrarLemmas QueueLemmas

/-- C37 (partial: `clear` and sharing the first `add`): for every history in which a kind is added before values of that
kind are pushed or arrive, the registrar behaves as one bounded list per kind; no undefined behaviour. -/
theorem C37_lists_partial {cap : Kind → Nat} (hc : ∀ k, 0 < cap k) {os : List Registrar.Op}
    (ha : addedFirst (fun _ => false) os) :
    ∃ r, Registrar.run cap Registrar.start os = .ok (r, (Ideal.run cap (fun _ => []) os).2) ∧
      ∀ k, (r k).count = ((Ideal.run cap (fun _ => []) os).1 k).length := by
  have h0 : Agree cap Registrar.start (fun _ => []) (fun _ => false) := fun k => .inr ⟨rfl, rfl, rfl⟩
  obtain ⟨r, ad, h1, h2⟩ := run_spec hc h0 ha
  exact ⟨r, h1, fun k => (holds_count (h2 k)).symm⟩

/-- A history meeting the hypotheses: two kinds do not mix, the queue of two places drops the third event. -/
example : addedFirst (fun _ => false) [.add .udpServer, .add .accepted, .push .udpServer (5 : Int),
      .event .accepted (3, 4), .event .udpServer (6 : Int), .event .udpServer (7 : Int), .pop .accepted,
      .pop .udpServer, .pop .udpServer, .pop .udpServer] ∧
    (Ideal.run (fun _ => 2) (fun _ => []) [.add .udpServer, .add .accepted, .push .udpServer (5 : Int),
      .event .accepted (3, 4), .event .udpServer (6 : Int), .event .udpServer (7 : Int), .pop .accepted,
      .pop .udpServer, .pop .udpServer, .pop .udpServer]).2 =
      [.nothing, .nothing, .pushed true, .nothing, .nothing, .nothing, .popped .accepted (3, 4),
        .popped .udpServer (5 : Int), .popped .udpServer (6 : Int), .popped .udpServer (-1 : Int)] := by
  refine ⟨?_, by decide +kernel⟩
  simp [addedFirst]

/-- All values pushed, or arriving, are valid. -/
def validValues : List Registrar.Op → Prop
  | [] => True
  | .push k v :: os => valid k v = true ∧ validValues os
  | .event k v :: os => valid k v = true ∧ validValues os
  | _ :: os => validValues os

theorem ideal_valid {cap : Kind → Nat} {os : List Registrar.Op} : ∀ {a : Ideal.Lists},
    (∀ k, ∀ v ∈ a k, valid k v = true) → validValues os → ∀ k, ∀ v ∈ (Ideal.run cap a os).1 k, valid k v = true := by
  have hset : ∀ {a : Ideal.Lists} {k : Kind} {l : List (Val k)}, (∀ k, ∀ v ∈ a k, valid k v = true) →
      (∀ v ∈ l, valid k v = true) → ∀ j, ∀ v ∈ Ideal.set a k l j, valid j v = true := by
    intro a k l h1 h2 j v hv
    by_cases hj : j = k
    · subst hj; simp at hv; exact h2 v hv
    · rw [set_ne _ _ hj] at hv; exact h1 j v hv
  have hpush : ∀ {a : Ideal.Lists} {k : Kind} {v : Val k}, (∀ k, ∀ v ∈ a k, valid k v = true) → valid k v = true →
      ∀ j, ∀ w ∈ Ideal.set a k (a k ++ [v]) j, valid j w = true := by
    intro a k v h1 h2
    refine hset h1 fun w hw => ?_
    rcases List.mem_append.mp hw with hw | hw
    · exact h1 k w hw
    · simp at hw; subst hw; exact h2
  induction os with
  | nil => intro a h _; exact h
  | cons o os ih =>
    intro a h hv
    simp only [Ideal.run]
    cases o with
    | add k => exact ih h hv
    | push k v =>
      refine ih ?_ hv.2
      simp only [Ideal.step]
      split
      · exact h
      · exact hpush h hv.1
    | event k v =>
      refine ih ?_ hv.2
      simp only [Ideal.step]
      split
      · exact h
      · exact hpush h hv.1
    | pop k =>
      refine ih ?_ hv
      simp only [Ideal.step]
      cases e : a k with
      | nil => exact h
      | cons v l => exact hset h fun w hw => h k w (by rw [e]; simp [hw])
    | clear =>
      refine ih ?_ hv
      intro k v hm
      simp only [Ideal.step, Ideal.cleared] at hm
      exact h k v ((List.dropWhile_suffix _).subset (List.mem_of_mem_tail hm))

theorem ideal_append {cap : Kind → Nat} {os os' : List Registrar.Op} : ∀ {a : Ideal.Lists},
    Ideal.run cap a (os ++ os') = ((Ideal.run cap (Ideal.run cap a os).1 os').1,
      (Ideal.run cap a os).2 ++ (Ideal.run cap (Ideal.run cap a os).1 os').2) := by
  induction os with
  | nil => intro a; rfl
  | cons o os ih => intro a; simp [Ideal.run, ih]

theorem addedFirst_append_clear {os : List Registrar.Op} : ∀ {ad}, addedFirst ad os → addedFirst ad (os ++ [.clear]) := by
  induction os with
  | nil => intro ad _; trivial
  | cons o os ih =>
    intro ad h
    cases o with
    | add k => exact ih h
    | push k v => exact ⟨h.1, ih h.2⟩
    | event k v => exact ⟨h.1, ih h.2⟩
    | pop k => exact ih h
    | clear => exact ih h

/-- C37 (partial: only valid values): `clear` leaves all queues empty. -/
theorem C37_clear_empties_partial {cap : Kind → Nat} (hc : ∀ k, 0 < cap k) {os : List Registrar.Op}
    (ha : addedFirst (fun _ => false) os) (hv : validValues os) :
    ∃ r out, Registrar.run cap Registrar.start (os ++ [.clear]) = .ok (r, out) ∧ ∀ k, (r k).count = 0 := by
  obtain ⟨r, h1, h2⟩ := C37_lists_partial hc (addedFirst_append_clear ha)
  refine ⟨r, _, h1, fun k => ?_⟩
  rw [h2 k, ideal_append]
  have hall := ideal_valid (cap := cap) (os := os) (a := fun _ => []) (by simp) hv k
  simp only [Ideal.run, Ideal.step, Ideal.cleared]
  have : ∀ l : List (Val k), (∀ v ∈ l, valid k v = true) → l.dropWhile (valid k) = [] := by
    intro l hl
    induction l with
    | nil => rfl
    | cons v l ih => rw [List.dropWhile_cons, if_pos (hl v (by simp))]; exact ih fun w hw => hl w (by simp [hw])
  rw [this _ hall]
  rfl

/-- C37 violated: `clear` stops at an invalid value: what was pushed after it stays in the queue and is delivered after
`clear`. -/
theorem C37_clear_stops_at_invalid {cap : Kind → Nat} (k : Kind) (hc : ∀ j, 2 ≤ cap j) (v : Val k) :
    ∃ r, Registrar.run cap Registrar.start [.add k, .push k (invalid k), .push k v, .clear, .pop k] =
      .ok (r, [.nothing, .pushed true, .pushed true, .nothing, .popped k v]) := by
  obtain ⟨r, h1, _⟩ := C37_lists_partial (cap := cap) (fun j => by have := hc j; omega)
    (os := [.add k, .push k (invalid k), .push k v, .clear, .pop k]) (by simp [addedFirst])
  refine ⟨r, h1.trans ?_⟩
  have hk := hc k
  have n0 : ¬ (0 = cap k) := by omega
  have n1 : ¬ (1 = cap k) := by omega
  simp [Ideal.run, Ideal.step, n0, n1, Ideal.cleared, valid_invalid]

/-- C37: what the two words mean: a value is valid if none of its descriptors is −1 (an accepted connection has two), and the value popped from an
empty queue consists of descriptors −1 only. -/
theorem C37_valid_meaning :
    (∀ v : Val .accepted, valid .accepted v = true ↔ v.1 ≠ -1 ∧ v.2 ≠ -1) ∧ (invalid .accepted).1 = -1 ∧ (invalid .accepted).2 = -1 ∧
    (∀ v : Int, (valid .udpServer v = true ↔ v ≠ -1) ∧ (valid .udpClient v = true ↔ v ≠ -1) ∧ (valid .tcpServer v = true ↔ v ≠ -1) ∧
      (valid .tcpClient v = true ↔ v ≠ -1)) ∧
    invalid .udpServer = (-1 : Int) ∧ invalid .udpClient = (-1 : Int) ∧ invalid .tcpServer = (-1 : Int) ∧ invalid .tcpClient = (-1 : Int) := by
  refine ⟨?_, rfl, rfl, ?_, rfl, rfl, rfl, rfl⟩
  · intro v; simp [valid]
  · intro v; simp [valid]

/-- The values of kind `k` pushed successfully, and the valid values popped. -/
def pushedValues (k : Kind) : List Registrar.Op → List Out → List (Val k)
  | .push j v :: os, .pushed true :: outs => if h : j = k then (h ▸ v) :: pushedValues k os outs else pushedValues k os outs
  | _ :: os, _ :: outs => pushedValues k os outs
  | _, _ => []

def poppedValues (k : Kind) : List Out → List (Val k)
  | .popped j v :: outs => if h : j = k then (if valid j v then (h ▸ v) :: poppedValues k outs else poppedValues k outs)
      else poppedValues k outs
  | _ :: outs => poppedValues k outs
  | [] => []

/-- Only `add`, `push` and `pop`. -/
def pushPop : List Registrar.Op → Prop
  | [] => True
  | .event _ _ :: _ => False
  | .clear :: _ => False
  | _ :: os => pushPop os

theorem ideal_exactly_once {cap : Kind → Nat} (k : Kind) {os : List Registrar.Op} : ∀ {a : Ideal.Lists},
    (∀ k, ∀ v ∈ a k, valid k v = true) → validValues os → pushPop os →
    a k ++ pushedValues k os (Ideal.run cap a os).2 =
      poppedValues k (Ideal.run cap a os).2 ++ (Ideal.run cap a os).1 k := by
  induction os with
  | nil => intro a _ _ _; simp [Ideal.run, pushedValues, poppedValues]
  | cons o os ih =>
    intro a h hv hp
    have hnext : ∀ j, ∀ v ∈ (Ideal.step cap a o).1 j, valid j v = true := by
      have := ideal_valid (cap := cap) (os := [o]) h (by cases o <;> first | exact ⟨hv.1, trivial⟩ | trivial)
      simpa [Ideal.run] using this
    cases o with
    | add j =>
      have := ih hnext hv hp
      simpa [Ideal.run, Ideal.step, pushedValues, poppedValues] using this
    | push j v =>
      have := ih hnext hv.2 hp
      simp only [Ideal.run, Ideal.step] at this ⊢
      by_cases hl : (a j).length = cap j
      · simpa only [hl, if_true, pushedValues, poppedValues] using this
      · simp only [hl, if_false, pushedValues, poppedValues] at this ⊢
        by_cases hj : j = k
        · subst hj
          simpa using this
        · rw [set_ne _ _ (Ne.symm hj)] at this
          simpa [hj] using this
    | event => exact hp.elim
    | pop j =>
      have := ih hnext hv hp
      simp only [Ideal.run, Ideal.step] at this ⊢
      cases e : a j with
      | nil =>
        simp only [e] at this
        simpa [pushedValues, poppedValues, valid_invalid] using this
      | cons v l =>
        simp only [e] at this
        have hvv : valid j v = true := h j v (by rw [e]; simp)
        by_cases hj : j = k
        · subst hj
          rw [e]
          simp only [set_self] at this
          simp only [pushedValues, poppedValues, hvv, if_true, dite_true, List.cons_append]
          exact congrArg (v :: ·) this
        · rw [set_ne _ _ (Ne.symm hj)] at this
          simpa [pushedValues, poppedValues, hj] using this
    | clear => exact hp.elim

/-- C37 (partial: valid values, kinds added first): in every history of `add`, `push` and `pop` the values popped of a kind
are exactly the first of the values pushed successfully of that kind, in order, each once; as many as are missing are in
the queue. -/
theorem C37_exactly_once_partial {cap : Kind → Nat} (hc : ∀ k, 0 < cap k) {os : List Registrar.Op}
    (ha : addedFirst (fun _ => false) os) (hv : validValues os) (hp : pushPop os) :
    ∃ r out, Registrar.run cap Registrar.start os = .ok (r, out) ∧
      ∀ k, ∃ rest, pushedValues k os out = poppedValues k out ++ rest ∧ rest.length = (r k).count := by
  obtain ⟨r, h1, h2⟩ := C37_lists_partial hc ha
  refine ⟨r, _, h1, fun k => ⟨(Ideal.run cap (fun _ => []) os).1 k, ?_, (h2 k).symm⟩⟩
  have := ideal_exactly_once (cap := cap) k (os := os) (a := fun _ => []) (by simp) hv hp
  simpa using this

example : addedFirst (fun _ => false) [.add .tcpClient, .push .tcpClient (9 : Int), .push .tcpClient (8 : Int),
      .pop .tcpClient] ∧
    validValues [.add .tcpClient, .push .tcpClient (9 : Int), .push .tcpClient (8 : Int), .pop .tcpClient] ∧
    pushPop [.add .tcpClient, .push .tcpClient (9 : Int), .push .tcpClient (8 : Int), .pop .tcpClient] := by
  simp [addedFirst, validValues, valid, pushPop]

/-- C37 violated: pushing for a kind that was never added dereferences a null pointer. -/
theorem C37_push_before_add_ub (cap : Kind → Nat) (k : Kind) (v : Val k) :
    Registrar.run cap Registrar.start [.push k v] = .ub ∧ Registrar.run cap Registrar.start [.event k v] = .ub := by
  have : push cap Registrar.start k v = .ub := by
    simp [push, call, Registrar.start, Q.fresh, Queue.obj, Obj.exec]
  constructor
  · simp [Registrar.run, Registrar.step, this, Res.bind]
  · simp [Registrar.run, Registrar.step, event, this, Res.bind]

namespace RegistrarLemmas

/-- The lock is free and no thread is in a call. -/
def Quiet {M L Op Ret : Type} (s : Conc.St M L Op Ret) : Prop := s.lock = none ∧ ∀ t, s.thr t = .idle

/-- A body run by thread `t` alone. -/
theorem run_body {M L Op Ret : Type} {obj : Obj M L Op Ret} {m : M} {t : Nat} {o : Op} {f : Nat} {l : L} {s : Conc.St M L Op Ret} {m' : M} {r : Ret}
    (hr : Run obj (fun _ => True) m s) (ht : s.thr t = .inside o l) (h : obj.exec f l s.mem = .ok (m', r)) :
    Run obj (fun _ => True) m { s with mem := m', thr := Own.upd s.thr t (.leaving o r) } := by
  induction f generalizing l s with
  | zero => simp [Obj.exec] at h
  | succ f ih =>
    rw [Obj.exec] at h
    split at h
    · rename_i m₁ l₁ e
      have h2 := ih (hr.step t (.go o l m₁ l₁ ht e)) (Own.upd_self ..) h
      have e2 : Own.upd (Own.upd s.thr t (.inside o l₁)) t (.leaving o r) = Own.upd s.thr t (.leaving o r) := by
        funext u; by_cases hu : u = t <;> simp [Own.upd, hu]
      simpa [e2] using h2
    · rename_i m₁ r₁ e
      injection h with h
      injection h with h1 h2
      subst h1; subst h2
      exact hr.step t (.finish o l m₁ r₁ ht e)
    · cases h
    · cases h

/-- A whole call of thread `t` while nothing else happens. -/
theorem run_call {M L Op Ret : Type} {obj : Obj M L Op Ret} {m : M} {s : Conc.St M L Op Ret} {m' : M} {r : Ret} (t : Nat) (o : Op) {f : Nat}
    (hr : Run obj (fun _ => True) m s) (hq : Quiet s) (h : obj.exec f (obj.enter o) s.mem = .ok (m', r)) :
    Run obj (fun _ => True) m { s with mem := m', hist := s.hist ++ [.inv t o, .ret t r] } := by
  obtain ⟨h1, h2⟩ := hq
  have a1 := hr.step t (.call o trivial (h2 t))
  have a2 := a1.step t (.acquire o (Own.upd_self ..) h1)
  have a3 := run_body a2 (Own.upd_self ..) h
  have a4 := a3.step t (.release o r (Own.upd_self ..))
  have a5 := a4.step t (.ret o r (Own.upd_self ..))
  have e : Own.upd (Own.upd (Own.upd (Own.upd (Own.upd s.thr t (.waiting o)) t (.inside o (obj.enter o))) t (.leaving o r)) t (.out o r)) t .idle =
      s.thr := by
    funext u; by_cases hu : u = t
    · subst hu; simp [h2]
    · simp [Own.upd, hu]
  rw [e] at a5
  simpa [h1] using a5

/-- The events of a thread's calls one after the other. -/
def calls {V : Type} (t : Nat) (l : List (Queue.Op V × Queue.Ret V)) : List (Event (Queue.Op V) (Queue.Ret V)) :=
  l.flatMap fun p => [.inv t p.1, .ret t p.2]

theorem run_pushes {V : Type} {n : Nat} {m₀ : Q V} (t : Nat) : ∀ (vs : List V) {s : Conc.St (Q V) (Queue.L V) (Queue.Op V) (Queue.Ret V)},
    Run (Queue.obj n) (fun _ => True) m₀ s → Quiet s → QueueLemmas.Ok n s.mem → s.mem.count + vs.length ≤ n →
    ∃ q, QueueLemmas.Ok n q ∧ q.count = s.mem.count + vs.length ∧ Run (Queue.obj n) (fun _ => True) m₀
      { s with mem := q, hist := s.hist ++ calls t (vs.map fun v => (.push v, .bool true)) }
  | [], s, hr, _, hok, _ => ⟨s.mem, hok, rfl, by simpa [calls] using hr⟩
  | v :: vs, s, hr, hq, hok, hc => by
    simp only [List.length_cons] at hc
    obtain ⟨b, hb, hlen⟩ := hok.buf
    have hl : s.mem.last < b.length := by rw [hlen, hok.last]; exact Nat.mod_lt _ hok.pos
    have he : (Queue.obj n).exec 8 ((Queue.obj n).enter (.push v)) s.mem =
        .ok ({ s.mem with buf := some (b.set s.mem.last v), last := advance n s.mem.last, count := s.mem.count + 1 }, .bool true) := by
      have : ¬ (s.mem.count = n) := by omega
      simp [Queue.obj, Obj.exec, hb, this, hl]
    have h1 := run_call t (.push v) hr hq he
    obtain ⟨q, a, b', c⟩ := run_pushes t vs h1 hq (ok_push hok (by omega) hb v) (by simp only; omega)
    refine ⟨q, a, ?_, ?_⟩
    · rw [b']; simp only [List.length_cons]; omega
    · simpa [calls] using c

theorem run_pops {V : Type} {n : Nat} {m₀ : Q V} (t : Nat) (iv : V) (hn : 0 < n) : ∀ (k : Nat) {s : Conc.St (Q V) (Queue.L V) (Queue.Op V) (Queue.Ret V)},
    Run (Queue.obj n) (fun _ => True) m₀ s → Quiet s → s.mem.buf = some (List.replicate n iv) → s.mem.first < n → s.mem.count = k →
    ∃ q, q.count = 0 ∧ Run (Queue.obj n) (fun _ => True) m₀
      { s with mem := q, hist := s.hist ++ calls t (List.replicate k (.pop iv, .value iv)) }
  | 0, s, hr, _, _, _, hc => ⟨s.mem, hc, by simpa [calls] using hr⟩
  | k + 1, s, hr, hq, hb, hf, hc => by
    have hset : (List.replicate n iv).set s.mem.first iv = List.replicate n iv := by
      apply List.ext_getElem
      · simp
      · intro i h1 h2; simp [List.getElem_set]
    have he : (Queue.obj n).exec 8 ((Queue.obj n).enter (.pop iv)) s.mem =
        .ok ({ s.mem with buf := some (List.replicate n iv), first := advance n s.mem.first, count := k }, .value iv) := by
      simp [Queue.obj, Obj.exec, hb, hc, hf, hset]
    have h1 := run_call t (.pop iv) hr hq he
    obtain ⟨q, a, b⟩ := run_pops t iv hn k h1 hq rfl (by simp only [advance_eq hf]; exact Nat.mod_lt _ hn) rfl
    exact ⟨q, a, by simpa [calls, List.replicate_succ] using b⟩

end RegistrarLemmas

/-- C37 violated: `add` tests the queue and initialises it in two separate critical sections.  Two threads `t` and `u` adding their
first sockets of a kind (`test`, then `init`), while any number of events of that kind that fit the queue arrives in between (pushed by thread `w`): every push
reports success, and what is delivered for each is the invalid descriptor `iv`; none of the values is ever delivered. -/
theorem C37_concurrent_add_loses_event {V : Type} {n : Nat} (iv : V) (vs : List V) (hn : 0 < n) (hv : vs.length ≤ n) (t u w : Nat) :
    ∃ s, Run (Queue.obj n) (fun _ => True) (Q.fresh : Q V) s ∧ s.mem.count = 0 ∧
      s.hist = [.inv t .test, .ret t (.bool false), .inv u .test, .ret u (.bool false), .inv t (.init iv), .ret t (.bool true)] ++
        (vs.flatMap fun v => [.inv w (.push v), .ret w (.bool true)]) ++ [.inv u (.init iv), .ret u (.bool true)] ++
        (vs.flatMap fun _ => [.inv w (.pop iv), .ret w (.value iv)]) ++ [.inv w (.pop iv), .ret w (.bool false)] := by
  have q0 : RegistrarLemmas.Quiet (Conc.St.initial (Q.fresh : Q V) : Conc.St (Q V) (Queue.L V) (Queue.Op V) (Queue.Ret V)) := ⟨rfl, fun _ => rfl⟩
  have r1 := RegistrarLemmas.run_call (obj := Queue.obj n) t .test (f := 8) .start q0 (m' := Q.fresh) (r := .bool false) rfl
  have r2 := RegistrarLemmas.run_call (obj := Queue.obj n) u .test (f := 8) r1 ⟨rfl, fun _ => rfl⟩ (m' := Q.fresh) (r := .bool false) rfl
  have r3 := RegistrarLemmas.run_call (obj := Queue.obj n) t (.init iv) (f := 8) r2 ⟨rfl, fun _ => rfl⟩ (m' := Q.inited n iv) (r := .bool true) rfl
  obtain ⟨q, hok, hc, r4⟩ := RegistrarLemmas.run_pushes w vs r3 ⟨rfl, fun _ => rfl⟩ (QueueLemmas.ok_inited hn iv)
    (by simp only [Q.inited]; omega)
  have r5 := RegistrarLemmas.run_call (obj := Queue.obj n) u (.init iv) (f := 8) r4 ⟨rfl, fun _ => rfl⟩
    (m' := { q with buf := some (List.replicate n iv), first := 0, last := 0 }) (r := .bool true) rfl
  obtain ⟨q', hc', r6⟩ := RegistrarLemmas.run_pops w iv hn vs.length r5 ⟨rfl, fun _ => rfl⟩ rfl hn (by simpa [Q.inited] using hc)
  have r7 := RegistrarLemmas.run_call (obj := Queue.obj n) w (.pop iv) (f := 8) r6 ⟨rfl, fun _ => rfl⟩ (m' := q') (r := .bool false)
    (by simp [Queue.obj, Obj.exec, hc'])
  refine ⟨_, r7, hc', ?_⟩
  have e : List.replicate vs.length ((Queue.Op.pop iv, Queue.Ret.value iv) : Queue.Op V × Queue.Ret V) = vs.map fun _ => (.pop iv, .value iv) := by
    rw [List.map_const']
  simp [RegistrarLemmas.calls, e, Conc.St.initial, List.flatMap_map]

/-- Two events for a queue of four: -/
example : ∃ s, Run (Queue.obj 4) (fun _ => True) (Q.fresh : Q Int) s ∧ s.mem.count = 0 ∧
    s.hist = [.inv 0 .test, .ret 0 (.bool false), .inv 1 .test, .ret 1 (.bool false), .inv 0 (.init (-1)), .ret 0 (.bool true)] ++
      [.inv 2 (.push 7), .ret 2 (.bool true), .inv 2 (.push 8), .ret 2 (.bool true)] ++ [.inv 1 (.init (-1)), .ret 1 (.bool true)] ++
      [.inv 2 (.pop (-1)), .ret 2 (.value (-1)), .inv 2 (.pop (-1)), .ret 2 (.value (-1))] ++ [.inv 2 (.pop (-1)), .ret 2 (.bool false)] :=
  C37_concurrent_add_loses_event (-1) [7, 8] (by decide) (by decide) 0 1 2

namespace Flame
open Conc Conc.Queue Conc.Registrar
example := C37_clear_empties_partial (cap := fun _ => 2) (by simp) (os := [.add .udpServer, .push .udpServer (5 : Int), .event .udpServer (6 : Int)])
  (by simp [addedFirst]) (by simp [validValues, valid])
example := C37_clear_stops_at_invalid (cap := fun _ => 2) .udpServer (by simp) (5 : Int)
end Flame

end Flame
