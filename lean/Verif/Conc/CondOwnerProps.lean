import Verif.Conc.CondOwner
import Verif.Conc.CondVarProps

/-!
# C157: over a mutex, only the thread that locked unlocks
-/

namespace Flame
open Flame.Conc
open Flame.Conc.CondVar (PC Call next)
open Flame.Own (upd upd_self upd_ne)

namespace CondOwnerLemmas
open CondVarLemmas

/-- Who holds the mutex in the states of one wait and one notification. -/
def Holds (a b : Nat) : PC → PC → Option Nat → Prop
  | .w4, _, h | .w5, _, h => h = some a
  | _, .n1, h | _, .n2 _ _, h => h = some b
  | .idle, .n7 _, h | .idle, .idle, h => h = some b
  | _, _, _ => True

theorem holds_step {a b w d : Nat} {s s' : CondOwner.St} (h : DuoSt a b w d s.b) (hh : Holds a b (s.b.thr a) (s.b.thr b) s.holder)
    (ha : s.alien = false) {t : Nat} (hs : CondOwner.move s t none = some s') :
    DuoSt a b w d s'.b ∧ Holds a b (s'.b.thr a) (s'.b.thr b) s'.holder ∧ s'.alien = false := by
  unfold CondOwner.move at hs
  cases hb : next s.b t none with
  | none => simp [hb] at hs
  | some b' =>
    simp only [hb, Option.some.injEq] at hs
    subst hs
    refine ⟨(duo_step h hb).1, ?_⟩
    have hne := h.ne
    have hne' : b ≠ a := fun e => hne e.symm
    have hda := h.duo
    by_cases hta : t = a
    · subst hta
      cases hx : s.b.thr t <;> cases hy : s.b.thr b <;> rw [hx, hy] at hda <;> simp only [Duo] at hda <;> rw [hx, hy] at hh <;>
        simp [next, hx, hda] at hb <;> subst hb <;>
        simp_all [Holds, CondOwner.locks, CondOwner.unlocks, upd_ne _ _ hne']
    · by_cases htb : t = b
      · subst htb
        cases hx : s.b.thr a <;> cases hy : s.b.thr t <;> rw [hx, hy] at hda <;> simp only [Duo] at hda <;> rw [hx, hy] at hh <;>
          simp [next, hy, hda] at hb <;> subst hb <;>
          simp_all [Holds, CondOwner.locks, CondOwner.unlocks, upd_ne _ _ hne]
      · have := h.others t hta htb
        simp [next, this] at hb

theorem play_append : ∀ (l l' : List (Nat × Option Call)) (s : CondOwner.St),
    CondOwner.play s (l ++ l') = (CondOwner.play s l).bind fun s' => CondOwner.play s' l'
  | [], _, _ => rfl
  | (t, c) :: l, l', s => by
    simp only [List.cons_append, CondOwner.play]
    cases CondOwner.move s t c with
    | none => rfl
    | some s' => simpa using play_append l l' s'

theorem play_base : ∀ (l : List (Nat × Option Call)) (s : CondOwner.St), CondVar.play s.b l = (CondOwner.play s l).map CondOwner.St.b
  | [], _ => rfl
  | (t, c) :: l, s => by
    simp only [CondOwner.play, CondVar.play, CondOwner.move]
    cases next s.b t c with
    | none => rfl
    | some s' => exact play_base l ⟨s', _, _⟩

/-- `notify` up to its loop. -/
def notifies (b : Nat) : List (Nat × Option Call) := [(b, some .notify), (b, none), (b, none), (b, none)]
/-- A waiter from the lock to the end. -/
def passes (a : Nat) : List (Nat × Option Call) := [(a, none), (a, none), (a, none), (a, none), (a, none)]
/-- A new wait up to the point where it holds the lock. -/
def waits (a : Nat) : List (Nat × Option Call) := [(a, some .wait), (a, none), (a, none), (a, none), (a, none)]

theorem play_notifies {s : CondOwner.St} {b : Nat} (hb : s.b.thr b = .idle) (hc : s.b.cnt ≠ 0) :
    CondOwner.play s (notifies b) = some ⟨{ s.b with thr := upd s.b.thr b (.n4 s.b.cnt s.b.woke), lk := false, flag := false, released := true },
      none, s.alien || s.holder != some b⟩ := by
  simp [notifies, CondOwner.play, CondOwner.move, next, CondOwner.unlocks, CondOwner.locks, upd_upd, hb, hc]

theorem play_passes {s : CondOwner.St} {a : Nat} (ha : s.b.thr a = .w3) (hl : s.b.lk = false) :
    CondOwner.play s (passes a) = some
      ⟨{ s.b with thr := upd s.b.thr a .idle, lk := false, flag := false, cnt := (s.b.cnt + 255) % 256, woke := s.b.woke + 1 },
        none, s.alien⟩ := by
  simp [passes, CondOwner.play, CondOwner.move, next, CondOwner.unlocks, CondOwner.locks, upd_upd, ha, hl]

theorem play_waits {s : CondOwner.St} {a : Nat} (ha : s.b.thr a = .idle) (hl : s.b.lk = false) (hc : s.b.cnt = 0) :
    CondOwner.play s (waits a) = some ⟨{ s.b with thr := upd s.b.thr a .w5, lk := true, flag := true, cnt := 1 }, some a, s.alien⟩ := by
  simp [waits, CondOwner.play, CondOwner.move, next, CondOwner.unlocks, CondOwner.locks, upd_upd, ha, hl, hc]

/-- One notification, during which the woken thread waits again. -/
def again (a b : Nat) : List (Nat × Option Call) :=
  notifies b ++ (passes a ++ ([(b, none)] ++ (waits a ++ [(b, none), (a, none), (a, none), (a, none)])))

theorem play_again {s : CondOwner.St} {a b : Nat} (hab : a ≠ b) (ha : s.b.thr a = .w3) (hb : s.b.thr b = .idle) (hc : s.b.cnt = 1)
    (hh : s.holder = some b) : ∃ f, f a = .idle ∧ f b = .idle ∧
    CondOwner.play s (again a b) = some
      ⟨{ s.b with thr := f, lk := false, flag := false, cnt := 0, woke := s.b.woke + 2, done := s.b.done + 1, released := true },
        none, s.alien⟩ := by
  have hba := hab.symm
  refine ⟨upd (upd (upd (upd (upd (upd (upd s.b.thr b (.n4 1 s.b.woke)) a .idle) b (.n5 s.b.woke)) a .w5) b .idle) a .w6) a .idle,
    by simp, by simp [upd_ne _ _ hba], ?_⟩
  rw [again, play_append, play_notifies hb (by omega), Option.bind_some, play_append, play_passes (by simpa [upd_ne _ _ hab] using ha) rfl,
    Option.bind_some, play_append]
  have h1 : ∀ q : CondOwner.St, q.b.thr b = .n4 1 s.b.woke → q.b.cnt = 0 →
      CondOwner.play q [(b, none)] = some { q with b := { q.b with thr := upd q.b.thr b (.n5 s.b.woke) } } := fun q e1 e2 => by
    simp [CondOwner.play, CondOwner.move, next, CondOwner.unlocks, CondOwner.locks, e1, e2]
  rw [h1 _ (by simp [upd_ne _ _ hba, hc]) (by simp [hc]), Option.bind_some, play_append,
    play_waits (by simp [upd_ne _ _ hab]) rfl (by simp [hc]), Option.bind_some]
  simp [CondOwner.play, CondOwner.move, next, CondOwner.unlocks, CondOwner.locks, upd_ne _ _ hab, upd_ne _ _ hba, hh, hc, upd_upd]

end CondOwnerLemmas
open CondOwnerLemmas CondVarLemmas

/-- **C157, part.** One thread waits and the thread that holds the mutex notifies, nobody else is active: in every interleaving
each unlock is by the holder, and when both have returned the notifier holds the mutex again. -/
theorem C157_partial {a b : Nat} (hab : a ≠ b) {s : CondOwner.St} (ha : s.b.thr a = .w2 ∨ s.b.thr a = .w3) (hb : s.b.thr b = .n1)
    (ho : ∀ t, t ≠ a → t ≠ b → s.b.thr t = .idle) (hc : s.b.cnt = 1) (hl : s.b.lk = true) (hf : s.b.flag = true)
    (hh : s.holder = some b) (hal : s.alien = false) {s' : CondOwner.St} (h : CondOwner.Reaches (fun _ _ => False) s s') :
    s'.alien = false ∧ (s'.b.thr a = .idle → s'.b.thr b = .idle → s'.holder = some b) := by
  suffices H : DuoSt a b s.b.woke s.b.done s'.b ∧ Holds a b (s'.b.thr a) (s'.b.thr b) s'.holder ∧ s'.alien = false by
    refine ⟨H.2.2, fun h1 h2 => ?_⟩
    have := H.2.1
    rw [h1, h2] at this
    exact this
  induction h with
  | refl =>
    refine ⟨⟨hab, ?_, ho, ?_, ?_⟩, ?_, hal⟩
    · rcases ha with ha | ha <;> rw [ha, hb] <;> exact ⟨hc, hl, hf⟩
    · rcases ha with ha | ha <;> rw [ha] <;> rfl
    · rw [hb]; rfl
    · rcases ha with ha | ha <;> rw [ha, hb] <;> exact hh
  | step t c _ hal hs ih =>
    cases c with
    | none => exact holds_step ih.1 ih.2.1 ih.2.2 hs
    | some c => exact (hal c rfl).elim

/-- In every history the mutex is locked exactly if some thread holds it, and a step changes the holder only by unlocking or, while
nobody holds the mutex, to the thread that makes the step. -/
theorem C157_holder {m : Nat} {s : CondOwner.St} (h : CondOwner.Reaches (fun _ _ => True) (CondOwner.start m) s) :
    s.b.lk = s.holder.isSome ∧ ∀ {t c s'}, CondOwner.move s t c = some s' →
      s'.holder = s.holder ∨ s'.holder = none ∨ (s.holder = none ∧ s'.holder = some t) := by
  have H : s.b.lk = s.holder.isSome := by
    induction h with
    | refl => rfl
    | @step s s' t c _ _ hs ih =>
      unfold CondOwner.move at hs
      cases hb : next s.b t c with
      | none => simp [hb] at hs
      | some b' =>
        simp only [hb, Option.some.injEq] at hs
        subst hs
        cases hx : s.b.thr t <;> simp only [next, hx] at hb <;> (try split at hb) <;> simp at hb <;> (try subst hb) <;>
          simp_all [CondOwner.locks, CondOwner.unlocks]
  refine ⟨H, fun {t c s'} hs => ?_⟩
  unfold CondOwner.move at hs
  cases hb : next s.b t c with
  | none => simp [hb] at hs
  | some b' =>
    simp only [hb, Option.some.injEq] at hs
    subst hs
    cases hk : s.holder <;> simp only [hk] at H <;> cases hu : CondOwner.unlocks (s.b.thr t) <;>
      cases hl : CondOwner.locks (s.b.thr t) <;> simp [H, hu, hl]

/-- **C157 fails: another thread notifies.** While somebody waits, a `notify` by a thread that does not hold the mutex unlocks it. -/
theorem C157_notify_violated {s : CondOwner.St} {b : Nat} (hb : s.b.thr b = .idle) (hc : s.b.cnt ≠ 0) (hh : s.holder ≠ some b) :
    (CondOwner.play s [(b, some .notify), (b, none), (b, none)]).map CondOwner.St.alien = some true := by
  simp [CondOwner.play, CondOwner.move, next, CondOwner.unlocks, CondOwner.locks, *]

/-- **C157 fails: `tryWait`.** While the constructing thread holds the mutex, a `tryWait` by any other thread unlocks it. -/
theorem C157_tryWait_violated {s : CondOwner.St} {b : Nat} (hb : s.b.thr b = .idle) (hf : s.b.flag = true) (hh : s.holder ≠ some b) :
    (CondOwner.play s [(b, some .tryWait), (b, none), (b, none)]).map CondOwner.St.alien = some true := by
  simp [CondOwner.play, CondOwner.move, next, CondOwner.unlocks, CondOwner.locks, *]

/-- **C157 fails: a thread that waits again.** Even if only the holder notifies: a waiter that is woken and waits again before
`notify` has taken the mutex back passes at once, `notify` returns without the mutex, and with the next waiter the next `notify`
unlocks a mutex nobody holds. -/
theorem C157_again_violated {s : CondOwner.St} {a b : Nat} (hab : a ≠ b) (ha : s.b.thr a = .w3) (hb : s.b.thr b = .idle) (hc : s.b.cnt = 1)
    (hh : s.holder = some b) :
    ∃ s', CondOwner.play s (again a b) = some s' ∧ s'.b.thr a = .idle ∧ s'.b.thr b = .idle ∧ s'.b.lk = false ∧ s'.holder = none ∧
      s'.alien = s.alien ∧
      (CondOwner.play s' [(a, some .wait), (a, none), (a, none), (b, some .notify), (b, none), (b, none)]).map CondOwner.St.alien = some true := by
  obtain ⟨f, h1, h2, h3⟩ := play_again hab ha hb hc hh
  refine ⟨_, h3, h1, h2, rfl, rfl, rfl, ?_⟩
  simp [CondOwner.play, CondOwner.move, next, CondOwner.unlocks, CondOwner.locks, upd_ne _ _ hab.symm, h1, h2]

/-- **C41 fails with one waiter and one notifier.** A thread that waits in a loop: one notification lets two waits return, and
leaves the lock free. -/
theorem C41_again_violated {s : CondVar.St} {a b : Nat} (hab : a ≠ b) (ha : s.thr a = .w3) (hb : s.thr b = .idle) (hc : s.cnt = 1) :
    (CondVar.play s (again a b)).map (fun t => (t.thr a, t.thr b, t.lk, t.cnt, t.woke, t.done)) =
      some (.idle, .idle, false, 0, s.woke + 2, s.done + 1) := by
  obtain ⟨f, h1, h2, h3⟩ := play_again (s := ⟨s, some b, false⟩) hab ha hb hc rfl
  rw [play_base (again a b) ⟨s, some b, false⟩, h3]
  simp [h1, h2]

/-- **C41 fails afterwards.** Once the lock is free, a wait returns at once although nobody notifies, and leaves the lock free. -/
theorem C41_free_violated {s : CondVar.St} {a : Nat} (ha : s.thr a = .idle) (hl : s.lk = false) (hc : s.cnt < 255) :
    (CondVar.play s ((a, some .wait) :: (a, none) :: (a, none) :: passes a)).map (fun t => (t.thr a, t.lk, t.cnt, t.woke, t.released)) =
      some (.idle, false, s.cnt, s.woke + 1, s.released) := by
  have h1 : (s.cnt + 1) % 256 = s.cnt + 1 := by omega
  have h2 : (s.cnt + 1 + 255) % 256 = s.cnt := by omega
  simp [CondVar.play, passes, next, ha, hl, h1, h2]

/-! ## Concrete cases -/

/-- Thread 1 waits, thread 0, which constructed the object, notifies. -/
example : (CondOwner.play (CondOwner.start 0) [(1, some .wait), (1, none), (1, none), (0, some .notify)]).map
    (fun s => (s.b.thr 1, s.b.thr 0, s.b.cnt, s.b.lk, s.b.flag, s.holder, s.alien)) = some (.w3, .n1, 1, true, true, some 0, false) := rfl

/-- Thread 1 waits, thread 2 is about to notify or to try. -/
example : (CondOwner.play (CondOwner.start 0) [(1, some .wait), (1, none), (1, none)]).map
    (fun s => (s.b.thr 1, s.b.thr 2, s.b.cnt, s.b.lk, s.b.flag, s.holder, s.alien)) = some (.w3, .idle, 1, true, true, some 0, false) := rfl

/-! The theorems at concrete states: thread 1 waits, thread 0 holds the mutex. -/

/-- Where a sequence of moves leads. -/
def CondOwner.after (ms : List (Nat × Option Call)) : CondOwner.St := (CondOwner.play (CondOwner.start 0) ms).getD (CondOwner.start 0)

def CondOwner.exWaiting : CondOwner.St := CondOwner.after [(1, some .wait), (1, none), (1, none)]

def CondOwner.exNotifying : CondOwner.St := CondOwner.after [(1, some .wait), (1, none), (1, none), (0, some .notify)]

theorem CondOwner.exNotifying_idle (t : Nat) (h1 : t ≠ 1) (h0 : t ≠ 0) : CondOwner.exNotifying.b.thr t = .idle := by
  have e : CondOwner.exNotifying.b.thr = upd (upd (upd (upd (fun _ => .idle) 1 .w1) 1 .w2) 1 .w3) 0 .n1 := rfl
  rw [e]
  simp [upd, h1, h0]

example := C157_partial (a := 1) (b := 0) (by decide) (s := CondOwner.exNotifying) (.inr rfl) rfl CondOwner.exNotifying_idle rfl rfl rfl rfl rfl
  (.step 0 none (.step 0 none .refl (by simp) rfl) (by simp) rfl)
example := C157_holder (m := 0) (.step 0 (some .notify) (.step 1 none (.step 1 (some .wait) .refl (by simp) rfl) (by simp) rfl) (by simp) rfl)
example := C157_notify_violated (s := CondOwner.exWaiting) (b := 2) rfl (by decide) (by decide)
example := C157_tryWait_violated (s := CondOwner.exWaiting) (b := 2) rfl rfl (by decide)
example := C157_again_violated (s := CondOwner.exWaiting) (a := 1) (b := 0) (by decide) rfl rfl rfl rfl
example := C41_again_violated (s := CondOwner.exWaiting.b) (a := 1) (b := 0) (by decide) rfl rfl rfl
example := C41_free_violated (s := { CondVar.init with lk := false }) (a := 1) rfl rfl (by decide)

end Flame
