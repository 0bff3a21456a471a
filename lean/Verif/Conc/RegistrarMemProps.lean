import Verif.Conc.RegistrarMem

/-! # C166: registering a socket when there is no memory -/

namespace Flame.Conc.RegMem
open Queue Registrar RegistrarLemmas

/-- Specification: the history with the attempts that had no memory left out. -/
def effective : List Op → List Registrar.Op
  | [] => []
  | .add k true _ :: os => .add k :: effective os
  | .add _ false _ :: os => effective os
  | .does o :: os => o :: effective os

/-- Specification: what a program sees of an effective history, attempts answered by what `enable` answers. -/
def answers : List Op → List Registrar.Out → List Out
  | [], _ => []
  | .add _ true en :: os, xs => .status en :: answers os xs.tail
  | .add _ false en :: os, xs => .status en :: answers os xs
  | .does _ :: os, x :: xs => .out x :: answers os xs
  | .does _ :: os, [] => answers os []

/-- Specification: memory for kind `k` was never there when asked for. -/
def starved (k : Kind) : List Op → Bool
  | [] => true
  | .add j mem _ :: os => !(decide (j = k) && mem) && starved k os
  | .does (.add j) :: os => !decide (j = k) && starved k os
  | .does _ :: os => starved k os

theorem setQ_same (r : Queues) (k : Kind) : setQ r k (r k) = r := by
  funext j
  by_cases hj : j = k
  · subst hj; simp
  · simp [setQ_ne _ _ hj]

theorem add_eq (cap : Kind → Nat) (r : Queues) (k : Kind) (en : Int) : Registrar.add cap r k = .ok (addMem cap r k true en).1 := by
  cases e : (r k).buf with
  | none =>
    have e1 : call cap r k .test = .ok (r, .bool false) := by
      simp [call, Queue.obj, Obj.exec, e, setQ_same]
    have e2 : call cap r k (.init (invalid k)) =
        .ok (setQ r k { r k with buf := some (List.replicate (cap k) (invalid k)), first := 0, last := 0 }, .bool true) := by
      simp [call, Queue.obj, Obj.exec]
    simp [Registrar.add, e1, e2, addMem, e, initMem]
  | some b =>
    have e1 : call cap r k .test = .ok (r, .bool true) := by
      simp [call, Queue.obj, Obj.exec, e, setQ_same]
    simp [Registrar.add, e1, addMem, e]

theorem addMem_false (cap : Kind → Nat) (r : Queues) (k : Kind) (en : Int) : addMem cap r k false en = (r, en) := by
  cases e : (r k).buf with
  | none =>
    have : ({ r k with buf := none } : Q (Val k)) = r k := by
      have : ∀ q : Q (Val k), q.buf = none → ({ q with buf := none } : Q (Val k)) = q := by
        intro q hq
        cases q
        simp at hq
        simp [hq]
      exact this _ e
    simp [addMem, e, initMem, this, setQ_same]
  | some b => simp [addMem, e]

theorem run_eq (cap : Kind → Nat) {os : List Op} : ∀ {r : Queues},
    run cap r os = match Registrar.run cap r (effective os) with
      | .ok (r', xs) => .ok (r', answers os xs)
      | .ub => .ub
      | .loop => .loop := by
  induction os with
  | nil => intro r; rfl
  | cons o os ih =>
    intro r
    cases o with
    | add k mem en =>
      cases mem with
      | true =>
        have hs : addMem cap r k true en = ((addMem cap r k true en).1, en) := by
          cases e : (r k).buf <;> simp [addMem, e]
        simp only [run, step, effective, Registrar.run, Registrar.step, add_eq cap r k en, Res.bind, ih]
        cases Registrar.run cap (addMem cap r k true en).1 (effective os) with
        | ok p => simp [answers, congrArg Prod.snd hs]
        | ub => rfl
        | loop => rfl
      | false =>
        simp only [run, step, effective, addMem_false, ih]
        cases Registrar.run cap r (effective os) with
        | ok p => simp [answers]
        | ub => rfl
        | loop => rfl
    | does o =>
      simp only [run, step, effective, Registrar.run]
      cases Registrar.step cap r o with
      | ok p =>
        simp only [Res.bind, ih]
        cases Registrar.run cap p.1 (effective os) with
        | ok q => simp [answers]
        | ub => rfl
        | loop => rfl
      | ub => rfl
      | loop => rfl

theorem call_buf {cap : Kind → Nat} {r r' : Queues} {j k : Kind} {o : Queue.Op (Val j)} {x : Queue.Ret (Val j)} (ho : notInit o)
    (h : call cap r j o = .ok (r', x)) (hk : (r k).buf = none) : (r' k).buf = none := by
  by_cases hj : k = j
  · subst hj
    cases o with
    | init iv => exact absurd ho id
    | test =>
      simp [call, Queue.obj, Obj.exec] at h
      rw [← h.1]; simpa using hk
    | push v => simp [call, Queue.obj, Obj.exec, hk] at h
    | pop iv =>
      by_cases hc : (r k).count = 0
      · simp [call, Queue.obj, Obj.exec, hc] at h
        rw [← h.1]; simpa using hk
      · simp [call, Queue.obj, Obj.exec, hk, hc] at h
  · unfold call at h
    cases e : (Queue.obj (cap j)).exec 8 ((Queue.obj (cap j)).enter o) (r j) with
    | ok p =>
      simp only [e, Res.ok.injEq, Prod.mk.injEq] at h
      rw [← h.1, setQ_ne _ _ hj]
      exact hk
    | ub => simp [e] at h
    | loop => simp [e] at h

theorem pop_buf {cap : Kind → Nat} {r r' : Queues} {j k : Kind} {v : Val j} (h : pop cap r j = .ok (r', v)) (hk : (r k).buf = none) :
    (r' k).buf = none := by
  unfold pop at h
  cases e : call cap r j (.pop (invalid j)) with
  | ok p =>
    obtain ⟨r1, x⟩ := p
    have := call_buf (o := .pop (invalid j)) trivial e hk
    cases x with
    | value v => simp [e] at h; rw [← h.1]; exact this
    | bool b => simp [e] at h; rw [← h.1]; exact this
  | ub => simp [e] at h
  | loop => simp [e] at h

theorem push_buf {cap : Kind → Nat} {r r' : Queues} {j k : Kind} {v : Val j} {b : Bool} (h : push cap r j v = .ok (r', b)) (hk : (r k).buf = none) :
    (r' k).buf = none := by
  unfold push at h
  cases e : call cap r j (.push v) with
  | ok p =>
    obtain ⟨r1, x⟩ := p
    have := call_buf (o := .push v) trivial e hk
    cases x with
    | value v => simp [e] at h; rw [← h.1]; exact this
    | bool b => simp [e] at h; rw [← h.1]; exact this
  | ub => simp [e] at h
  | loop => simp [e] at h

theorem drain_buf {cap : Kind → Nat} {j k : Kind} : ∀ {f : Nat} {r r' : Queues}, drain cap j f r = .ok r' → (r k).buf = none → (r' k).buf = none := by
  intro f
  induction f with
  | zero => intro r r' h; simp [drain] at h
  | succ f ih =>
    intro r r' h hk
    unfold drain at h
    cases e : pop cap r j with
    | ok p =>
      obtain ⟨r1, v⟩ := p
      have := pop_buf e hk
      simp only [e] at h
      by_cases hv : valid j v = true
      · rw [if_pos hv] at h; exact ih h this
      · rw [if_neg hv] at h; injection h with h; subst h; exact this
    | ub => simp [e] at h
    | loop => simp [e] at h

theorem clear_buf {cap : Kind → Nat} {f : Nat} {k : Kind} {r r' : Queues} (h : Registrar.clear cap f r = .ok r') (hk : (r k).buf = none) :
    (r' k).buf = none := by
  unfold Registrar.clear at h
  cases e1 : drain cap .udpServer f r with
  | ok r1 =>
    cases e2 : drain cap .udpClient f r1 with
    | ok r2 =>
      cases e3 : drain cap .accepted f r2 with
      | ok r3 =>
        cases e4 : drain cap .tcpServer f r3 with
        | ok r4 =>
          simp [e1, e2, e3, e4] at h
          exact drain_buf h (drain_buf e4 (drain_buf e3 (drain_buf e2 (drain_buf e1 hk))))
        | ub => simp [e1, e2, e3, e4] at h
        | loop => simp [e1, e2, e3, e4] at h
      | ub => simp [e1, e2, e3] at h
      | loop => simp [e1, e2, e3] at h
    | ub => simp [e1, e2] at h
    | loop => simp [e1, e2] at h
  | ub => simp [e1] at h
  | loop => simp [e1] at h

theorem starved_buf {cap : Kind → Nat} {k : Kind} {os : List Op} : ∀ {r r' : Queues} {xs : List Out}, run cap r os = .ok (r', xs) →
    starved k os = true → (r k).buf = none → (r' k).buf = none := by
  induction os with
  | nil =>
    intro r r' xs h _ hk
    simp [run] at h
    rw [← h.1]
    exact hk
  | cons o os ih =>
    intro r r' xs h hst hk
    unfold run at h
    cases e : step cap r o with
    | ub => simp [e] at h
    | loop => simp [e] at h
    | ok p =>
      obtain ⟨r1, x⟩ := p
      simp only [e] at h
      cases er : run cap r1 os with
      | ub => simp [er] at h
      | loop => simp [er] at h
      | ok q =>
        obtain ⟨r2, ys⟩ := q
        simp only [er] at h
        injection h with h
        injection h with h1 h2
        subst h1
        have key : (r1 k).buf = none ∧ starved k os = true := by
          cases o with
          | add j mem en =>
            simp only [starved, Bool.and_eq_true, Bool.not_eq_true', Bool.and_eq_false_iff, decide_eq_false_iff_not] at hst
            refine ⟨?_, hst.2⟩
            simp only [step] at e
            injection e with e
            injection e with e _
            rcases hst.1 with hj | hm
            · rw [← e]
              unfold addMem
              split
              · exact hk
              · show (setQ r j _ k).buf = none
                rw [setQ_ne _ _ (fun e => hj e.symm)]
                exact hk
            · subst hm
              rw [addMem_false] at e
              rw [← e]
              exact hk
          | does o =>
            simp only [step] at e
            cases es : Registrar.step cap r o with
            | ub => simp [es] at e
            | loop => simp [es] at e
            | ok p =>
              obtain ⟨r3, y⟩ := p
              simp only [es] at e
              injection e with e
              injection e with e _
              subst e
              cases o with
              | add j =>
                simp only [starved, Bool.and_eq_true, Bool.not_eq_true', decide_eq_false_iff_not] at hst
                refine ⟨?_, hst.2⟩
                simp only [Registrar.step, add_eq cap r j 0, Res.bind] at es
                injection es with es
                injection es with es _
                rw [← es]
                unfold addMem
                split
                · exact hk
                · show (setQ r j _ k).buf = none
                  rw [setQ_ne _ _ (fun e => hst.1 e.symm)]
                  exact hk
              | push j v =>
                refine ⟨?_, hst⟩
                simp only [Registrar.step] at es
                cases ep : push cap r j v with
                | ok p => obtain ⟨a, b⟩ := p; simp [ep, Res.bind] at es; rw [← es.1]; exact push_buf ep hk
                | ub => simp [ep, Res.bind] at es
                | loop => simp [ep, Res.bind] at es
              | event j v =>
                refine ⟨?_, hst⟩
                simp only [Registrar.step, event] at es
                cases ep : push cap r j v with
                | ok p => obtain ⟨a, b⟩ := p; simp [ep, Res.bind] at es; rw [← es.1]; exact push_buf ep hk
                | ub => simp [ep, Res.bind] at es
                | loop => simp [ep, Res.bind] at es
              | pop j =>
                refine ⟨?_, hst⟩
                simp only [Registrar.step] at es
                cases ep : pop cap r j with
                | ok p => obtain ⟨a, b⟩ := p; simp [ep, Res.bind] at es; rw [← es.1]; exact pop_buf ep hk
                | ub => simp [ep, Res.bind] at es
                | loop => simp [ep, Res.bind] at es
              | clear =>
                refine ⟨?_, hst⟩
                simp only [Registrar.step] at es
                cases ec : Registrar.clear cap ((r .udpServer).count + (r .udpClient).count + (r .accepted).count +
                    (r .tcpServer).count + (r .tcpClient).count + 1) r with
                | ok p => simp [ec, Res.bind] at es; rw [← es.1]; exact clear_buf ec hk
                | ub => simp [ec, Res.bind] at es
                | loop => simp [ec, Res.bind] at es
        exact ih er key.2 key.1

end Flame.Conc.RegMem

namespace Flame
open Conc Conc.RegMem

/-- **C166 fails.** A socket is registered when there is no memory for the queue of its kind: `add` answers what `enable` answers, success included,
and whatever happened before (as long as memory for this kind was never there) and whatever was queued for other kinds, the socket's first event
is undefined, and so is pushing for it. -/
theorem C166_event_violated {cap : Registrar.Kind → Nat} (k : Registrar.Kind) {os : List RegMem.Op} {r : Registrar.Queues} {xs : List RegMem.Out}
    (h : RegMem.run cap Registrar.start os = .ok (r, xs)) (hs : starved k os = true) (v : Registrar.Val k) (en : Int) :
    RegMem.step cap r (.add k false en) = .ok (r, .status en) ∧
    RegMem.run cap r [.add k false en, .does (.event k v)] = .ub ∧ RegMem.run cap r [.add k false en, .does (.push k v)] = .ub := by
  have hb : (r k).buf = none := starved_buf h hs rfl
  have hp : Registrar.push cap r k v = .ub := by simp [Registrar.push, Registrar.call, Queue.obj, Obj.exec, hb]
  refine ⟨by simp [RegMem.step, addMem_false], ?_, ?_⟩
  · simp [RegMem.run, RegMem.step, addMem_false, Registrar.step, Registrar.event, hp, Res.bind]
  · simp [RegMem.run, RegMem.step, addMem_false, Registrar.step, hp, Res.bind]

/-- **C166, the part that holds.** An attempt without memory leaves everything as it was, so it can be repeated: a history behaves as the same history without
such attempts, which is C37; and events are queued as soon as one attempt for their kind has had memory. -/
theorem C166_retry_partial {cap : Registrar.Kind → Nat} (hc : ∀ k, 0 < cap k) {os : List RegMem.Op}
    (ha : addedFirst (fun _ => false) (effective os)) :
    ∃ r, RegMem.run cap Registrar.start os = .ok (r, answers os (Ideal.run cap (fun _ => []) (effective os)).2) ∧
      ∀ k, (r k).count = ((Ideal.run cap (fun _ => []) (effective os)).1 k).length := by
  obtain ⟨r, h1, h2⟩ := C37_lists_partial hc ha
  exact ⟨r, by rw [run_eq, h1], h2⟩

/-- C166: only the memory decides: `add` for a kind whose queue exists does not allocate. -/
theorem C166_later_adds (cap : Registrar.Kind → Nat) (r : Registrar.Queues) (k : Registrar.Kind) (mem : Bool) (en : Int) (b : List (Registrar.Val k))
    (hb : (r k).buf = some b) : addMem cap r k mem en = (r, en) := by
  simp [addMem, hb]

/-- C166, the queue itself: `init` tells whether there was memory; a queue initialised again without memory has given up its array but not its count:
taking from it is undefined if it was not empty, and adding to it always is. -/
theorem C166_init {V : Type} (n : Nat) (iv jv v : V) (m : Queue.Q V) :
    (initMem n true iv m).2 = true ∧ (initMem n false iv m).2 = false ∧
    (m.count ≠ 0 → (Queue.obj n).exec 8 ((Queue.obj n).enter (.pop jv)) (initMem n false iv m).1 = .ub) ∧
    (Queue.obj n).exec 8 ((Queue.obj n).enter (.push v)) (initMem n false iv m).1 = .ub := by
  refine ⟨rfl, rfl, fun h => ?_, ?_⟩
  · simp [initMem, Queue.obj, Obj.exec, h]
  · simp [initMem, Queue.obj, Obj.exec]

/-- The hypothesis of `C166_event_violated` after a history that uses another kind. -/
example : starved .udpServer [.add .tcpClient true 0, .does (.event .tcpClient (5 : Int)), .add .udpServer false 0, .does .clear] = true ∧
    (∃ p, RegMem.run (fun _ => 3) Registrar.start [.add .tcpClient true 0, .does (.event .tcpClient (5 : Int)), .add .udpServer false 0, .does .clear] =
      .ok p ∧ p.2 = [.status 0, .out .nothing, .status 0, .out .nothing]) := by
  refine ⟨by decide, ?_⟩
  obtain ⟨r, hr, _⟩ := C166_retry_partial (cap := fun _ => 3) (by simp)
    (os := [.add .tcpClient true 0, .does (.event .tcpClient (5 : Int)), .add .udpServer false 0, .does .clear])
    (by simp [effective, addedFirst])
  exact ⟨_, hr, by show answers _ _ = _; decide⟩

/-- An attempt that is repeated, then an event that is delivered. -/
example : addedFirst (fun _ => false) (effective [.add .udpServer false 0, .add .udpServer true 0, .does (.event .udpServer (4 : Int)), .does (.pop .udpServer)]) ∧
    answers [.add .udpServer false 0, .add .udpServer true 0, .does (.event .udpServer (4 : Int)), .does (.pop .udpServer)]
      (Ideal.run (fun _ => 2) (fun _ => []) (effective [.add .udpServer false 0, .add .udpServer true 0, .does (.event .udpServer (4 : Int)),
        .does (.pop .udpServer)])).2 = [.status 0, .status 0, .out .nothing, .out (.popped .udpServer (4 : Int))] := by
  refine ⟨by simp [effective, addedFirst], by decide⟩

namespace Flame
open Conc Conc.RegMem
example := C166_event_violated (cap := fun _ => 3) .udpServer (os := []) rfl rfl (4 : Int) 0
example := C166_later_adds (fun _ => 3) (addMem (fun _ => 3) Registrar.start .udpServer true 0).1 .udpServer false 0 _ rfl
end Flame

end Flame
