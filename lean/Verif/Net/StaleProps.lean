import Verif.Net.Stale

/-!
# C153: a popped descriptor is the registered socket the event happened to

The specification speaks about each popped event: which socket it happened to, and what the popped descriptor stood for at that moment.
-/

namespace Flame
open Flame.Stale
open Flame.Own (upd upd_self upd_ne Reach runPre)

/-- What a program expects of an event it pops. -/
def Stale.Right (p : Pop) : Prop := p.reg = true ∧ p.now = some (p.ev.sock, p.kind)

instance (p : Pop) : Decidable (Stale.Right p) := inferInstanceAs (Decidable (_ ∧ _))

namespace StaleLemmas

theorem mem_raise {posix : Bool} {w : List Ent} {e x : Ent} (h : x ∈ raise posix w e) : x ∈ w ∨ x = e := by
  unfold raise at h
  split at h
  · exact .inl h
  · simpa using h

theorem push_ok {cap : Nat} {made : Bool} {q q' : List Ent} {e : Ent} (h : push cap made q e = .ok q') :
    made = true ∧ (q' = q ∨ q' = q ++ [e]) := by
  unfold push at h
  cases made with
  | false => simp at h
  | true =>
    simp only [Bool.not_true, Bool.false_eq_true, if_false] at h
    split at h <;> simp only [Res.ok.injEq] at h
    · exact ⟨rfl, .inl h.symm⟩
    · exact ⟨rfl, .inr h.symm⟩

/-- What `handle` does when it goes well. -/
theorem handle_ok {posix : Bool} {cap : Nat} {s s' : St} {e : Ent} {w : List Ent} (hw : s.waiting = e :: w)
    (h : Stale.step posix cap s .handle = .ok s') :
    (s.desc e.fd = none ∧ s' = { s with waiting := w }) ∨
    ∃ n k q, s.desc e.fd = some (n, k) ∧ s.made k = true ∧ (q = s.queue k ∨ q = s.queue k ++ [e]) ∧
      s' = { s with waiting := w, queue := fun k' => if k' = k then q else s.queue k' } := by
  simp only [Stale.step, hw] at h
  cases hd : s.desc e.fd with
  | none => simp only [hd, Res.ok.injEq] at h; exact .inl ⟨rfl, h.symm⟩
  | some nk =>
    obtain ⟨n, k⟩ := nk
    simp only [hd] at h
    cases hp : push cap (s.made k) (s.queue k) e with
    | ok q =>
      simp only [hp, Res.bind, Res.ok.injEq] at h
      obtain ⟨hm, hq⟩ := push_ok hp
      exact .inr ⟨n, k, q, rfl, hm, hq, h.symm⟩
    | ub => simp [hp, Res.bind] at h
    | loop => simp [hp, Res.bind] at h

/-- Every event on its way or popped happened. -/
def Known (s : St) : Prop :=
  (∀ e ∈ s.waiting, e ∈ s.happened) ∧ (∀ k, ∀ e ∈ s.queue k, e ∈ s.happened) ∧ ∀ p ∈ s.popped, p.ev ∈ s.happened

theorem known_step {posix : Bool} {cap : Nat} {s s' : St} {o : Stale.Op} (h : Known s) (hs : Stale.step posix cap s o = .ok s') : Known s' := by
  obtain ⟨h1, h2, h3⟩ := h
  cases o with
  | openAs fd k => simp only [Stale.step, Res.ok.injEq] at hs; subst hs; exact ⟨h1, h2, h3⟩
  | add fd =>
    simp only [Stale.step] at hs
    split at hs <;> simp only [Res.ok.injEq] at hs <;> subst hs <;> exact ⟨h1, h2, h3⟩
  | remove fd => simp only [Stale.step, Res.ok.injEq] at hs; subst hs; exact ⟨h1, h2, h3⟩
  | close fd => simp only [Stale.step, Res.ok.injEq] at hs; subst hs; exact ⟨h1, h2, h3⟩
  | data fd =>
    simp only [Stale.step] at hs
    split at hs
    · split at hs <;> simp only [Res.ok.injEq] at hs <;> subst hs
      · refine ⟨fun e he => ?_, fun k e he => List.mem_cons_of_mem _ (h2 k e he), fun p hp => List.mem_cons_of_mem _ (h3 p hp)⟩
        rcases mem_raise he with he | rfl
        · exact List.mem_cons_of_mem _ (h1 e he)
        · exact List.mem_cons_self
      · exact ⟨h1, h2, h3⟩
    · simp only [Res.ok.injEq] at hs; subst hs; exact ⟨h1, h2, h3⟩
  | handle =>
    cases hw : s.waiting with
    | nil => simp only [Stale.step, hw, Res.ok.injEq] at hs; subst hs; exact ⟨h1, h2, h3⟩
    | cons e w =>
      have hmem : ∀ x ∈ w, x ∈ s.happened := fun x hx => h1 x (by rw [hw]; exact List.mem_cons_of_mem _ hx)
      have he : e ∈ s.happened := h1 e (by rw [hw]; exact List.mem_cons_self)
      rcases handle_ok hw hs with ⟨-, rfl⟩ | ⟨n, k, q, -, -, hq, rfl⟩
      · exact ⟨hmem, h2, h3⟩
      · refine ⟨hmem, fun k' x hx => ?_, h3⟩
        simp only at hx
        split at hx
        · rename_i hk
          subst hk
          rcases hq with rfl | rfl
          · exact h2 _ x hx
          · rcases List.mem_append.mp hx with hx | hx
            · exact h2 _ x hx
            · rw [List.mem_singleton.mp hx]; exact he
        · exact h2 k' x hx
  | pop k =>
    simp only [Stale.step] at hs
    split at hs <;> simp only [Res.ok.injEq] at hs <;> subst hs
    · exact ⟨h1, h2, h3⟩
    · rename_i e q hq
      refine ⟨h1, fun k' x hx => ?_, fun p hp => ?_⟩
      · simp only at hx
        split at hx
        · rename_i hk; subst hk; exact h2 _ x (by rw [hq]; exact List.mem_cons_of_mem _ hx)
        · exact h2 k' x hx
      · rcases List.mem_cons.mp hp with rfl | hp
        · exact h2 k e (by rw [hq]; exact List.mem_cons_self)
        · exact h3 p hp

/-- Everything on its way is still about the registered socket it happened to. -/
structure Fresh (s : St) : Prop where
  waiting : ∀ e ∈ s.waiting, s.reg e.fd = true ∧ ∃ k, s.desc e.fd = some (e.sock, k)
  queue : ∀ k, ∀ e ∈ s.queue k, s.reg e.fd = true ∧ s.desc e.fd = some (e.sock, k)
  made : ∀ fd n k, s.reg fd = true → s.desc fd = some (n, k) → s.made k = true
  popped : ∀ p ∈ s.popped, Stale.Right p

theorem settled_frame {s : St} (h : Fresh s) {fd : Nat} (hs : Settled s fd) (d : Nat → Option (Nat × Stale.Kind)) (r : Nat → Bool)
    (hd : ∀ x, x ≠ fd → d x = s.desc x) (hr : ∀ x, x ≠ fd → r x = s.reg x) (hf : r fd = false) (next : Nat) :
    Fresh { s with desc := d, reg := r, next := next } := by
  refine ⟨fun e he => ?_, fun k e he => ?_, fun x n k hx hn => ?_, h.popped⟩
  · have hne := hs.1 e he
    simp only [hd _ hne, hr _ hne]; exact h.waiting e he
  · have hne := hs.2 k e he
    simp only [hd _ hne, hr _ hne]; exact h.queue k e he
  · simp only at hx hn
    by_cases hxf : x = fd
    · subst hxf; simp [hf] at hx
    · rw [hr _ hxf] at hx; rw [hd _ hxf] at hn; exact h.made x n k hx hn

theorem settled_closed {s : St} (h : Fresh s) {fd : Nat} (hd : s.desc fd = none) : Settled s fd := by
  refine ⟨fun e he heq => ?_, fun k e he heq => ?_⟩
  · obtain ⟨-, k, hk⟩ := h.waiting e he
    rw [heq, hd] at hk; simp at hk
  · obtain ⟨-, hk⟩ := h.queue k e he
    rw [heq, hd] at hk; simp at hk

theorem fresh_step {posix : Bool} {cap : Nat} {s : St} {o : Stale.Op} (h : Fresh s) (ho : careful s o) :
    ∃ s', Stale.step posix cap s o = .ok s' ∧ Fresh s' := by
  obtain ⟨hp, hc⟩ := ho
  cases o with
  | openAs fd k =>
    exact ⟨_, rfl, settled_frame h (settled_closed h hp) _ _ (fun x hx => upd_ne _ _ hx) (fun x hx => upd_ne _ _ hx) (upd_self _ _ _) _⟩
  | add fd =>
    simp only [Stale.step]
    cases hd : s.desc fd with
    | none => exact ⟨_, rfl, h⟩
    | some nk =>
      obtain ⟨n, k⟩ := nk
      have hreg : ∀ x, s.reg x = true → upd s.reg fd true x = true := by
        intro x hx
        by_cases hxf : x = fd
        · subst hxf; exact upd_self _ _ _
        · rw [upd_ne _ _ hxf]; exact hx
      refine ⟨_, rfl, fun e he => ⟨hreg _ (h.waiting e he).1, (h.waiting e he).2⟩, fun k' e he => ⟨hreg _ (h.queue k' e he).1, (h.queue k' e he).2⟩,
        fun x m k' hx hm => ?_, h.popped⟩
      simp only at hx hm ⊢
      split
      · rfl
      · rename_i hk
        by_cases hxf : x = fd
        · subst hxf; rw [hd] at hm; simp only [Option.some.injEq, Prod.mk.injEq] at hm; exact absurd hm.2.symm hk
        · rw [upd_ne _ _ hxf] at hx; exact h.made x m k' hx hm
  | remove fd => exact ⟨_, rfl, settled_frame h hc s.desc _ (fun x hx => rfl) (fun x hx => upd_ne _ _ hx) (upd_self _ _ _) s.next⟩
  | close fd => exact ⟨_, rfl, settled_frame h hc _ _ (fun x hx => upd_ne _ _ hx) (fun x hx => upd_ne _ _ hx) (upd_self _ _ _) s.next⟩
  | data fd =>
    simp only [Stale.step]
    cases hd : s.desc fd with
    | none => exact ⟨_, rfl, h⟩
    | some nk =>
      obtain ⟨n, k⟩ := nk
      simp only
      split
      · rename_i hr
        refine ⟨_, rfl, fun e he => ?_, h.queue, h.made, h.popped⟩
        rcases mem_raise he with he | rfl
        · exact h.waiting e he
        · exact ⟨hr, k, hd⟩
      · exact ⟨_, rfl, h⟩
  | handle =>
    cases hw : s.waiting with
    | nil => exact ⟨s, by simp [Stale.step, hw], h⟩
    | cons e w =>
      obtain ⟨hr, k, hk⟩ := h.waiting e (by rw [hw]; exact List.mem_cons_self)
      have hm := h.made _ _ _ hr hk
      have hw' : ∀ x ∈ w, s.reg x.fd = true ∧ ∃ k, s.desc x.fd = some (x.sock, k) :=
        fun x hx => h.waiting x (by rw [hw]; exact List.mem_cons_of_mem _ hx)
      have hq : ∃ q, push cap (s.made k) (s.queue k) e = .ok q ∧ ∀ x ∈ q, s.reg x.fd = true ∧ s.desc x.fd = some (x.sock, k) := by
        unfold push
        rw [hm]
        simp only [Bool.not_true, Bool.false_eq_true, if_false]
        split
        · exact ⟨_, rfl, h.queue k⟩
        · refine ⟨_, rfl, fun x hx => ?_⟩
          rcases List.mem_append.mp hx with hx | hx
          · exact h.queue k x hx
          · rw [List.mem_singleton.mp hx]; exact ⟨hr, hk⟩
      obtain ⟨q, hq, hq'⟩ := hq
      refine ⟨{ s with waiting := w, queue := fun k' => if k' = k then q else s.queue k' }, by simp only [Stale.step, hw, hk, hq, Res.bind], hw', fun k' x hx => ?_, h.made, h.popped⟩
      simp only at hx
      split at hx
      · rename_i hkk; subst hkk; exact hq' x hx
      · exact h.queue k' x hx
  | pop k =>
    simp only [Stale.step]
    cases hq : s.queue k with
    | nil => exact ⟨_, rfl, h⟩
    | cons e q =>
      refine ⟨_, rfl, h.waiting, fun k' x hx => ?_, h.made, fun p hp => ?_⟩
      · simp only at hx
        split at hx
        · rename_i hkk; subst hkk; exact h.queue _ x (by rw [hq]; exact List.mem_cons_of_mem _ hx)
        · exact h.queue k' x hx
      · rcases List.mem_cons.mp hp with rfl | hp
        · exact h.queue k e (by rw [hq]; exact List.mem_cons_self)
        · exact h.popped p hp

theorem fresh_start : Fresh Stale.start :=
  ⟨by simp [Stale.start], by simp [Stale.start], by simp [Stale.start], by simp [Stale.start]⟩

/-- `fd` is silent: not registered, nothing about it on its way. -/
def Silent (fd : Nat) (s : St) : Prop := s.reg fd = false ∧ Settled s fd

theorem silent_step {posix : Bool} {cap : Nat} {s s' : St} {o : Stale.Op} {fd : Nat} (h : Silent fd s) (ho : o ≠ .add fd)
    (hs : Stale.step posix cap s o = .ok s') : Silent fd s' ∧ ∀ p ∈ s'.popped, p ∈ s.popped ∨ p.ev.fd ≠ fd := by
  obtain ⟨hr, hw, hq⟩ := h
  have updF : ∀ x, upd s.reg x false fd = false := by
    intro x
    by_cases hx : fd = x
    · subst hx; exact upd_self _ _ _
    · rw [upd_ne _ _ hx]; exact hr
  cases o with
  | openAs x k => simp only [Stale.step, Res.ok.injEq] at hs; subst hs; exact ⟨⟨updF x, hw, hq⟩, fun p hp => .inl hp⟩
  | add x =>
    have hx : fd ≠ x := fun e => ho (by rw [e])
    simp only [Stale.step] at hs
    split at hs <;> simp only [Res.ok.injEq] at hs <;> subst hs
    · refine ⟨⟨?_, hw, hq⟩, fun p hp => .inl hp⟩
      simp only [upd_ne _ _ hx]; exact hr
    · exact ⟨⟨hr, hw, hq⟩, fun p hp => .inl hp⟩
  | remove x => simp only [Stale.step, Res.ok.injEq] at hs; subst hs; exact ⟨⟨updF x, hw, hq⟩, fun p hp => .inl hp⟩
  | close x => simp only [Stale.step, Res.ok.injEq] at hs; subst hs; exact ⟨⟨updF x, hw, hq⟩, fun p hp => .inl hp⟩
  | data x =>
    simp only [Stale.step] at hs
    split at hs
    · split at hs <;> simp only [Res.ok.injEq] at hs <;> subst hs
      · rename_i hx
        refine ⟨⟨hr, fun e he => ?_, hq⟩, fun p hp => .inl hp⟩
        rcases mem_raise he with he | rfl
        · exact hw e he
        · intro e; simp only at e; rw [e, hr] at hx; simp at hx
      · exact ⟨⟨hr, hw, hq⟩, fun p hp => .inl hp⟩
    · simp only [Res.ok.injEq] at hs; subst hs; exact ⟨⟨hr, hw, hq⟩, fun p hp => .inl hp⟩
  | handle =>
    cases hwt : s.waiting with
    | nil => simp only [Stale.step, hwt, Res.ok.injEq] at hs; subst hs; exact ⟨⟨hr, hw, hq⟩, fun p hp => .inl hp⟩
    | cons e w =>
      have hw' : ∀ x ∈ w, x.fd ≠ fd := fun x hx => hw x (by rw [hwt]; exact List.mem_cons_of_mem _ hx)
      have he : e.fd ≠ fd := hw e (by rw [hwt]; exact List.mem_cons_self)
      rcases handle_ok hwt hs with ⟨-, rfl⟩ | ⟨n, k, q, -, -, hqq, rfl⟩
      · exact ⟨⟨hr, hw', hq⟩, fun p hp => .inl hp⟩
      · refine ⟨⟨hr, hw', fun k' x hx => ?_⟩, fun p hp => .inl hp⟩
        simp only at hx
        split at hx
        · rename_i hk
          subst hk
          rcases hqq with rfl | rfl
          · exact hq _ x hx
          · rcases List.mem_append.mp hx with hx | hx
            · exact hq _ x hx
            · rw [List.mem_singleton.mp hx]; exact he
        · exact hq k' x hx
  | pop k =>
    simp only [Stale.step] at hs
    split at hs <;> simp only [Res.ok.injEq] at hs <;> subst hs
    · exact ⟨⟨hr, hw, hq⟩, fun p hp => .inl hp⟩
    · rename_i e q hqk
      refine ⟨⟨hr, hw, fun k' x hx => ?_⟩, fun p hp => ?_⟩
      · simp only at hx
        split at hx
        · rename_i hk; subst hk; exact hq _ x (by rw [hqk]; exact List.mem_cons_of_mem _ hx)
        · exact hq k' x hx
      · rcases List.mem_cons.mp hp with rfl | hp
        · exact .inr (hq k e (by rw [hqk]; exact List.mem_cons_self))
        · exact .inl hp

end StaleLemmas

open StaleLemmas

/-- **C153, nothing is invented.** In every execution, whatever the program removes, closes and opens, each popped descriptor had an event while it
was registered. -/
theorem C153_happened {posix : Bool} {cap : Nat} {s : St} (h : Reach (Stale.step posix cap) Stale.pre Stale.start s) {p : Pop}
    (hp : p ∈ s.popped) : p.ev ∈ s.happened :=
  (h.inv (P := Known) ⟨by simp [Stale.start], by simp [Stale.start], by simp [Stale.start]⟩ (fun _ _ _ hk _ hs => known_step hk hs)).2.2 p hp

/-- **C153, what holds.** If the program removes and closes a socket only when no event of it is waiting or queued, every popped descriptor is
registered and stands for the socket the event happened to, of the kind of its queue; and no call goes wrong. -/
theorem C153_partial {posix : Bool} {cap : Nat} {s : St} (h : Reach (Stale.step posix cap) careful Stale.start s) :
    (∀ p ∈ s.popped, Stale.Right p) ∧ ∀ o, careful s o → ∃ s', Stale.step posix cap s o = .ok s' := by
  have hf : Fresh s := h.inv fresh_start (fun s o s' hk hp hs => by
    obtain ⟨t, ht, hft⟩ := fresh_step (posix := posix) (cap := cap) hk hp
    rw [ht] at hs; simp only [Res.ok.injEq] at hs; exact hs ▸ hft)
  exact ⟨hf.popped, fun o ho => (fresh_step hf ho).imp fun _ h => h.1⟩

/-- **C153, what holds after a removal.** Once a descriptor is removed and what was on its way about it is used up, it is not popped again until it
is added again. -/
theorem C153_drained_partial {posix : Bool} {cap : Nat} {s t : St} {fd : Nat} (hr : s.reg fd = false) (hs : Settled s fd)
    (h : Reach (Stale.step posix cap) (fun s o => Stale.pre s o ∧ o ≠ .add fd) s t) : ∀ p ∈ t.popped, p ∈ s.popped ∨ p.ev.fd ≠ fd := by
  have := h.inv (P := fun t => Silent fd t ∧ ∀ p ∈ t.popped, p ∈ s.popped ∨ p.ev.fd ≠ fd) ⟨⟨hr, hs⟩, fun p hp => .inl hp⟩
    (fun u o u' hk hp hst => by
      obtain ⟨a, b⟩ := silent_step hk.1 hp.2 hst
      exact ⟨a, fun p hp => (b p hp).elim (hk.2 p) .inr⟩)
  exact this.2

/-- **C153 fails: removed.** Whenever an event is queued, removing its socket does not take it back: the next pop delivers the removed
descriptor. -/
theorem C153_removed_violated (posix : Bool) (cap : Nat) (s : St) {k : Stale.Kind} {e : Ent} {q : List Ent} (hq : s.queue k = e :: q)
    (hd : s.desc e.fd ≠ none) :
    (runPre (Stale.step posix cap) Stale.pre s [.remove e.fd, .pop k]).map St.popped = some (⟨k, e, false, s.desc e.fd⟩ :: s.popped) := by
  simp [runPre, Stale.pre, Stale.step, hd, hq, upd_self]

/-- **C153 fails: removed while the signal waits.** The handler queues the removed descriptor, and it is popped. -/
theorem C153_waiting_violated (posix : Bool) {cap : Nat} (hc : cap ≠ 0) (s : St) {k : Stale.Kind} {n : Nat} {e : Ent} {w : List Ent}
    (hw : s.waiting = e :: w) (hd : s.desc e.fd = some (n, k)) (hm : s.made k = true) (hq : s.queue k = []) :
    (runPre (Stale.step posix cap) Stale.pre s [.remove e.fd, .handle, .pop k]).map St.popped =
      some (⟨k, e, false, s.desc e.fd⟩ :: s.popped) := by
  simp [runPre, Stale.pre, Stale.step, hd, hw, push, hm, hq, Res.bind, Ne.symm hc, upd_self]

/-- **C153 fails: the number was given out again.** An event that is queued when its socket is closed is delivered as one of the next socket with
that number, whatever its kind. -/
theorem C153_reused_violated (posix : Bool) (cap : Nat) (s : St) {k : Stale.Kind} {e : Ent} {q : List Ent} (hq : s.queue k = e :: q)
    (hd : s.desc e.fd ≠ none) (k' : Stale.Kind) :
    (runPre (Stale.step posix cap) Stale.pre s [.close e.fd, .openAs e.fd k', .add e.fd, .pop k]).map St.popped =
      some (⟨k, e, true, some (s.next, k')⟩ :: s.popped) := by
  simp [runPre, Stale.pre, Stale.step, hd, hq, upd_self]

/-- **C153 fails: the handler misfiles.** A signal waiting when its socket is closed is filed under the kind of the next socket with that number;
if no socket of that kind was ever added, the handler follows a null pointer. -/
theorem C153_misfiled_violated (posix : Bool) {cap : Nat} (hc : cap ≠ 0) (s : St) {k' : Stale.Kind} {e : Ent} {w : List Ent}
    (hw : s.waiting = e :: w) (hd : s.desc e.fd ≠ none) (hq : s.queue k' = []) :
    ∃ s', runPre (Stale.step posix cap) Stale.pre s [.close e.fd, .openAs e.fd k'] = some s' ∧
      (s.made k' = false → Stale.step posix cap s' .handle = .ub) ∧
      (s.made k' = true → (runPre (Stale.step posix cap) Stale.pre s' [.handle, .pop k']).map St.popped =
        some (⟨k', e, false, some (s.next, k')⟩ :: s.popped)) := by
  refine ⟨{ s with desc := upd (upd s.desc e.fd none) e.fd (some (s.next, k')), reg := upd (upd s.reg e.fd false) e.fd false,
                   next := s.next + 1 }, by simp [runPre, Stale.pre, Stale.step, hd, upd_self], fun hm => ?_, fun hm => ?_⟩
  · simp [Stale.step, hw, upd_self, push, hm, Res.bind]
  · simp [runPre, Stale.pre, Stale.step, hw, upd_self, push, hm, hq, Res.bind, Ne.symm hc]

/-! ## Concrete cases -/

example : ∃ s, Reach (Stale.step true 4) careful Stale.start s ∧
    s.popped = [⟨.tcpClient, ⟨5, 1⟩, true, some (1, .tcpClient)⟩, ⟨.udpServer, ⟨5, 0⟩, true, some (0, .udpServer)⟩] :=
  Reach.witness [.openAs 5 .udpServer, .add 5, .data 5, .handle, .pop .udpServer, .remove 5, .close 5, .openAs 5 .tcpClient, .add 5, .data 5,
    .handle, .pop .tcpClient] St.popped _ rfl

/-- the hypotheses of the violations -/
example : ∃ s, Reach (Stale.step false 4) Stale.pre Stale.start s ∧
    (s.waiting, s.queue .udpServer, s.desc 5, s.made .udpServer, s.made .tcpClient, s.queue .tcpClient) =
      ([⟨5, 0⟩], [⟨5, 0⟩], some (0, .udpServer), true, false, []) :=
  Reach.witness [.openAs 5 .udpServer, .add 5, .data 5, .handle, .data 5]
    _ _ rfl

/-! The theorems at concrete histories. -/

def Stale.exState : St := Own.visit (Stale.step false 4) Stale.pre Stale.start [.openAs 5 .udpServer, .add 5, .data 5, .handle, .data 5]

def Stale.exWaiting : St := Own.visit (Stale.step false 4) Stale.pre Stale.start [.openAs 5 .udpServer, .add 5, .data 5]

example := C153_happened (posix := true) (cap := 4) (.visit ([.openAs 5 .udpServer, .add 5, .data 5, .handle, .pop .udpServer] : List Stale.Op) (by rfl))
  (p := ⟨.udpServer, ⟨5, 0⟩, true, some (0, .udpServer)⟩) (by decide +kernel)
example := C153_partial (posix := true) (cap := 4) (.visit ([.openAs 5 .udpServer, .add 5, .data 5, .handle, .pop .udpServer, .remove 5, .close 5] : List Stale.Op) (by rfl))
example := C153_removed_violated false 4 Stale.exState (k := .udpServer) rfl (by decide)
example := C153_waiting_violated false (cap := 4) (by decide) Stale.exWaiting (k := .udpServer) rfl rfl rfl rfl
example := C153_reused_violated false 4 Stale.exState (k := .udpServer) rfl (by decide) .tcpClient
example := C153_drained_partial (posix := false) (cap := 4) (fd := 5) (s := Stale.start) rfl (by decide)
  (.visit ([.openAs 5 .udpServer, .openAs 6 .udpServer, .add 6, .data 6, .handle, .pop .udpServer] : List Stale.Op) (by decide +kernel))

end Flame
