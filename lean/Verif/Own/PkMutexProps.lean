import Verif.Own.PkMutex

/-! # C52: the PKCS#11 mutex -/

namespace Flame.Own.Pk

structure Inv (s : St) : Prop where
  ledger : Ledger (owner s) s.log
  fresh : ∀ r, .made r ∈ s.log → r < s.next
  /-- callbacks are all stubs (then there is no context) or all the application's -/
  cbs : ∀ i v, s.vars i = some v → (v.destroyMutex = .stub ∧ v.lockMutex = .stub ∧ v.context = none) ∨
    (v.destroyMutex = .user ∧ v.lockMutex = .user)

theorem inv_init : Inv init := ⟨Ledger.init.congr (by intro i; rfl), by simp [init], by simp [init]⟩

theorem moved_owner {s : St} {i j : Nat} {v : Var} (hj : s.vars j = some v) (k : Nat) :
    ((upd (upd s.vars i (some v)) j (some { v with context := none })) k).bind Var.context =
      upd (upd (owner s) i (owner s j)) j none k := by
  by_cases hkj : k = j
  · subst hkj; simp
  · rw [upd_ne _ _ hkj, upd_ne _ _ hkj]
    by_cases hki : k = i
    · subst hki; simp [owner, hj]
    · rw [upd_ne _ _ hki, upd_ne _ _ hki]; rfl

theorem moved_cbs {s : St} (h : Inv s) {i j : Nat} {v : Var} (hj : s.vars j = some v) (k : Nat) (x : Var)
    (hx : (upd (upd s.vars i (some v)) j (some { v with context := none })) k = some x) :
    (x.destroyMutex = .stub ∧ x.lockMutex = .stub ∧ x.context = none) ∨
      (x.destroyMutex = .user ∧ x.lockMutex = .user) := by
  by_cases hkj : k = j
  · subst hkj
    simp only [upd_self, Option.some.injEq] at hx
    subst hx
    rcases h.cbs k v hj with ⟨a, b, _⟩ | ⟨a, b⟩
    · exact .inl ⟨a, b, rfl⟩
    · exact .inr ⟨a, b⟩
  · rw [upd_ne _ _ hkj] at hx
    by_cases hki : k = i
    · subst hki
      simp only [upd_self, Option.some.injEq] at hx
      subst hx
      exact h.cbs j v hj
    · rw [upd_ne _ _ hki] at hx
      exact h.cbs k x hx

/-- Destroying the context of a variable, which then has none. -/
theorem destroy_inv {s : St} (h : Inv s) {i : Nat} {v : Var} (hv : s.vars i = some v) :
    ∃ r, destroyVar s v = .ok r ∧
      (∀ w : Option Var, (∀ x, w = some x → x = r.2) → Inv { r.1 with vars := upd s.vars i w }) := by
  have hown : owner s i = v.context := by simp [owner, hv]
  have hcb := h.cbs i v hv
  have key : ∀ (w : Option Var) (c : Option Nat), c = none → (∀ x, w = some x → x.context = c) → ∀ k,
      ((upd s.vars i w) k).bind Var.context = upd (owner s) i none k := by
    intro w c hc hw k
    by_cases hk : k = i
    · subst hk
      rw [upd_self, upd_self]
      cases w with
      | none => rfl
      | some x => simp [hw x rfl, hc]
    · rw [upd_ne _ _ hk, upd_ne _ _ hk]; rfl
  have cb' : ∀ (w : Option Var), (∀ x, w = some x → x.destroyMutex = v.destroyMutex ∧ x.lockMutex = v.lockMutex ∧
      (v.context = none → x.context = none)) → ∀ k x, upd s.vars i w k = some x →
      (x.destroyMutex = .stub ∧ x.lockMutex = .stub ∧ x.context = none) ∨
        (x.destroyMutex = .user ∧ x.lockMutex = .user) := by
    intro w hw k x hx
    by_cases hk : k = i
    · subst hk
      rw [upd_self] at hx
      obtain ⟨e1, e2, e3⟩ := hw x hx
      rw [e1, e2]
      rcases hcb with ⟨a, b, c⟩ | hc
      · exact .inl ⟨a, b, e3 c⟩
      · exact .inr hc
    · rw [upd_ne _ _ hk] at hx
      exact h.cbs k x hx
  rcases hcb with ⟨hd, hlk, hc⟩ | ⟨hd, hlk⟩
  · refine ⟨_, by simp [destroyVar, hd]; rfl, ?_⟩
    intro w hw
    refine ⟨?_, h.fresh, cb' w (fun x hx => by rw [hw x hx]; exact ⟨hd.symm, rfl, fun _ => rfl⟩)⟩
    refine h.ledger.congr ?_
    intro k
    refine (key w none rfl (fun x hx => by rw [hw x hx]) k).trans ?_
    by_cases hk : k = i
    · subst hk; rw [upd_self, hown, hc]
    · rw [upd_ne _ _ hk]
  · cases hc : v.context with
    | none =>
      refine ⟨_, by simp [destroyVar, hd, hc]; rfl, ?_⟩
      intro w hw
      refine ⟨?_, ?_, cb' w (fun x hx => by rw [hw x hx]; exact ⟨hd.symm, rfl, fun _ => rfl⟩)⟩
      · refine h.ledger.nothing.congr ?_
        intro k
        refine (key w none rfl (fun x hx => by rw [hw x hx]) k).trans ?_
        by_cases hk : k = i
        · subst hk; rw [upd_self, hown, hc]
        · rw [upd_ne _ _ hk]
      · intro r hr; exact h.fresh r (by simpa using hr)
    | some r =>
      have ho : owner s i = some r := by rw [hown, hc]
      refine ⟨_, by simp [destroyVar, hd, hc, h.ledger.ownedLive i r ho]; rfl, ?_⟩
      intro w hw
      refine ⟨?_, ?_, cb' w (fun x hx => by rw [hw x hx]; exact ⟨hd.symm, rfl, fun _ => rfl⟩)⟩
      · exact (h.ledger.close ho).congr (key w none rfl (fun x hx => by rw [hw x hx]))
      · intro q hq; exact h.fresh q (by simpa using hq)

theorem created_cbs {s : St} (h : Inv s) {i : Nat} {w : Var}
    (hw : (w.destroyMutex = .stub ∧ w.lockMutex = .stub ∧ w.context = none) ∨ (w.destroyMutex = .user ∧ w.lockMutex = .user))
    (k : Nat) (x : Var) (hx : upd s.vars i (some w) k = some x) :
    (x.destroyMutex = .stub ∧ x.lockMutex = .stub ∧ x.context = none) ∨
      (x.destroyMutex = .user ∧ x.lockMutex = .user) := by
  by_cases hk : k = i
  · subst hk
    simp only [upd_self, Option.some.injEq] at hx
    subst hx
    exact hw
  · rw [upd_ne _ _ hk] at hx
    exact h.cbs k x hx

theorem step_ok {s : St} (h : Inv s) {o : Op} (hp : careful s o) : ∃ s', step s o = .ok s' ∧ Inv s' := by
  obtain ⟨hp, hcare⟩ := hp
  cases o with
  | default i =>
    simp only [pre] at hp
    refine ⟨{ s with vars := upd s.vars i (some ⟨.stub, .stub, .stub, none, .ok⟩) }, by simp [step, hp], ?_, h.fresh,
      created_cbs h (.inl ⟨rfl, rfl, rfl⟩)⟩
    refine h.ledger.congr ?_
    intro k
    by_cases hk : k = i
    · subst hk; simp [owner, hp]
    · simp [owner, upd_ne _ _ hk]
  | construct i c d l u ok =>
    simp only [pre] at hp
    obtain ⟨rfl, rfl, rfl, rfl⟩ := hcare
    cases ok with
    | true =>
      have h1 : .made s.next ∉ s.log := fun hm => Nat.lt_irrefl _ (h.fresh _ hm)
      have h2 : .closed s.next ∉ s.log := fun hc => h1 (closed_made h.ledger.proper hc)
      refine ⟨_, by simp [step, hp]; rfl, ?_, ?_, ?_⟩
      · refine (h.ledger.make (i := i) (by simp [owner, hp]) h1 h2).congr ?_
        intro k
        by_cases hk : k = i
        · subst hk; simp [owner]
        · simp [owner, upd_ne _ _ hk]
      · intro r hr
        rcases List.mem_cons.mp hr with e | e
        · injection e with e; subst e; exact Nat.lt_succ_self _
        · exact Nat.lt_succ_of_lt (h.fresh r e)
      · exact created_cbs h (.inr ⟨rfl, rfl⟩)
    | false =>
      refine ⟨{ s with vars := upd s.vars i (some ⟨.user, .user, .user, none, .failed⟩), calls := .create :: s.calls },
        by simp [step, hp], ?_, h.fresh, created_cbs h (.inr ⟨rfl, rfl⟩)⟩
      refine h.ledger.congr ?_
      intro k
      by_cases hk : k = i
      · subst hk; simp [owner, hp]
      · simp [owner, upd_ne _ _ hk]
  | moveCtor i j =>
    obtain ⟨hi, hj⟩ := hp
    obtain ⟨v, hv⟩ := Option.ne_none_iff_exists'.mp hj
    have hij : i ≠ j := by intro e; subst e; exact hj hi
    exact ⟨{ s with vars := upd (upd s.vars i (some v)) j (some { v with context := none }) }, by simp [step, hi, hv],
      (h.ledger.move (i := i) (j := j) (by simp [owner, hi]) hij).congr (moved_owner hv), h.fresh, moved_cbs h hv⟩
  | moveAssign i j =>
    obtain ⟨hi, hj⟩ := hp
    obtain ⟨ho, hij⟩ := hcare
    obtain ⟨v, hv⟩ := Option.ne_none_iff_exists'.mp hj
    obtain ⟨u, hu⟩ := Option.ne_none_iff_exists'.mp hi
    exact ⟨{ s with vars := upd (upd s.vars i (some v)) j (some { v with context := none }) }, by simp [step, hu, hv],
      (h.ledger.move (i := i) (j := j) ho hij).congr (moved_owner hv), h.fresh, moved_cbs h hv⟩
  | lock i =>
    obtain ⟨v, hv⟩ := Option.ne_none_iff_exists'.mp (show s.vars i ≠ none from hp)
    rcases h.cbs i v hv with ⟨_, e, _⟩ | ⟨_, e⟩
    · exact ⟨s, by simp [step, hv, e], h⟩
    · exact ⟨{ s with calls := .lock v.context :: s.calls }, by simp [step, hv, e], h.ledger.congr (fun _ => rfl), h.fresh, h.cbs⟩
  | unlock i =>
    obtain ⟨v, hv⟩ := Option.ne_none_iff_exists'.mp (show s.vars i ≠ none from hp)
    rcases h.cbs i v hv with ⟨_, e, _⟩ | ⟨_, e⟩
    · exact ⟨s, by simp [step, hv, e], h⟩
    · exact ⟨{ s with calls := .lock v.context :: s.calls }, by simp [step, hv, e], h.ledger.congr (fun _ => rfl), h.fresh, h.cbs⟩
  | destroy i =>
    obtain ⟨v, hv⟩ := Option.ne_none_iff_exists'.mp (show s.vars i ≠ none from hp)
    obtain ⟨r, hr, hinv⟩ := destroy_inv h hv
    exact ⟨_, by simp [step, hv, hr], hinv (some r.2) (by intro x hx; injection hx with hx; exact hx.symm)⟩
  | drop i =>
    obtain ⟨v, hv⟩ := Option.ne_none_iff_exists'.mp (show s.vars i ≠ none from hp)
    obtain ⟨r, hr, hinv⟩ := destroy_inv h hv
    exact ⟨_, by simp [step, hv, hr], hinv none (by simp)⟩

theorem reach_inv {s : St} (h : Reach step careful init s) : Inv s :=
  h.inv inv_init (fun s o s' hi hp he => by
    obtain ⟨u, hu, hinv⟩ := step_ok hi hp
    rw [he] at hu
    injection hu with hu
    subst hu
    exact hinv)

/-- No operation calls the unlock callback. -/
theorem step_calls {s s' : St} {o : Op} (hs : step s o = .ok s') (h : ∀ c, .unlock c ∉ s.calls) :
    ∀ c, .unlock c ∉ s'.calls := by
  have hd : ∀ v r, destroyVar s v = .ok r → ∀ c, .unlock c ∉ r.1.calls := by
    intro v r hr
    unfold destroyVar at hr
    split at hr
    · cases hr
    · injection hr with hr; subst hr; exact h
    · split at hr
      · injection hr with hr; subst hr; simpa using h
      · split at hr
        · injection hr with hr; subst hr; simpa using h
        · cases hr
  cases o <;> simp only [step] at hs
  case default => split at hs <;> first | (cases hs; done) | (injection hs with hs; subst hs; exact h)
  case construct =>
    split at hs
    · cases hs
    · split at hs
      · injection hs with hs; subst hs; exact h
      · split at hs
        · split at hs <;> (injection hs with hs; subst hs; simpa using h)
        · injection hs with hs; subst hs; exact h
  case moveCtor => split at hs <;> first | (cases hs; done) | (injection hs with hs; subst hs; exact h)
  case moveAssign => split at hs <;> first | (cases hs; done) | (injection hs with hs; subst hs; exact h)
  case lock =>
    split at hs
    · split at hs <;> first | (cases hs; done) | (injection hs with hs; subst hs; simpa using h)
    · cases hs
  case unlock =>
    split at hs
    · split at hs <;> first | (cases hs; done) | (injection hs with hs; subst hs; simpa using h)
    · cases hs
  case destroy =>
    split at hs
    · split at hs
      · rename_i v _ _ r hr; injection hs with hs; subst hs; exact hd v r hr
      · cases hs
      · cases hs
    · cases hs
  case drop =>
    split at hs
    · split at hs
      · rename_i v _ _ r hr; injection hs with hs; subst hs; exact hd v r hr
      · cases hs
      · cases hs
    · cases hs

end Flame.Own.Pk

namespace Flame
open Own

/-- **C52, the part that holds.** In every execution in which all four callbacks are supplied and no mutex is
assigned over while it has a context: each context has exactly one owner, is destroyed only while it exists, and
exactly once when all mutexes are gone. -/
theorem C52_contexts_partial {s : Pk.St} (h : Reach Pk.step Pk.careful Pk.init s) :
    Ledger (Pk.owner s) s.log ∧ ((∀ i, s.vars i = none) → ReleasedOnce s.log) ∧
    ∀ o, Pk.careful s o → ∃ s', Pk.step s o = .ok s' :=
  ⟨(Pk.reach_inv h).ledger,
    fun hg => (Pk.reach_inv h).ledger.releasedOnce (by intro i; simp [Pk.owner, hg i]),
    fun _ hp => let ⟨s', hs, _⟩ := Pk.step_ok (Pk.reach_inv h) hp; ⟨s', hs⟩⟩

/-- **C52 fails.** In no execution whatsoever is the unlock callback ever called. -/
theorem C52_unlock_never_called {s : Pk.St} (h : Reach Pk.step (fun _ _ => True) Pk.init s) (c : Option Nat) :
    .unlock c ∉ s.calls :=
  h.inv (P := fun s => ∀ c, .unlock c ∉ s.calls) (by simp [Pk.init]) (fun _ _ _ hi _ he => Pk.step_calls he hi) c

/-- **C52 fails.** `lock(); unlock();` locks the mutex twice. -/
theorem C52_unlock_locks {s : Pk.St} {i : Nat} {v : Pk.Var} (hv : s.vars i = some v) (hl : v.lockMutex = .user) :
    runOps Pk.step s [.lock i, .unlock i] = .ok { s with calls := .lock v.context :: .lock v.context :: s.calls } := by
  simp [runOps, Pk.step, hv, hl]

/-- **C52.** If any of the four callbacks is missing the constructor reports it and calls none of them. -/
theorem C52_missing_reported {s : Pk.St} {i : Nat} {c d l u : Pk.Cb} {ok : Bool} (hi : s.vars i = none)
    (hm : c = .null ∨ d = .null ∨ l = .null ∨ u = .null) :
    ∃ s', Pk.step s (.construct i c d l u ok) = .ok s' ∧ (s'.vars i).map Pk.Var.lastStatus = some .argumentsBad ∧
      s'.calls = s.calls ∧ s'.log = s.log :=
  ⟨{ s with vars := upd s.vars i (some ⟨d, l, u, none, .argumentsBad⟩) }, by simp [Pk.step, hi, hm], by simp, rfl, rfl⟩

/-- **C52.** With all four callbacks the constructor's outcome is the create callback's: called once, its context kept if it
succeeded; the library's own callbacks keep no context and succeed. -/
theorem C52_construct_exact {s : Pk.St} {i : Nat} {c d l u : Pk.Cb} {ok : Bool} (hi : s.vars i = none)
    (hm : c ≠ .null ∧ d ≠ .null ∧ l ≠ .null ∧ u ≠ .null) :
    ∃ s', Pk.step s (.construct i c d l u ok) = .ok s' ∧ s'.vars i =
        some ⟨d, l, u, if c = .user ∧ ok = true then some s.next else none, if c = .user ∧ ok = false then .failed else .ok⟩ ∧
      s'.calls = (if c = .user then [.create] else []) ++ s.calls ∧
      s'.log = (if c = .user ∧ ok = true then [.made s.next] else []) ++ s.log ∧ ∀ k, k ≠ i → s'.vars k = s.vars k := by
  obtain ⟨h1, h2, h3, h4⟩ := hm
  cases c with
  | null => exact absurd rfl h1
  | stub =>
    exact ⟨{ s with vars := upd s.vars i (some ⟨d, l, u, none, .ok⟩) }, by simp [Pk.step, hi, h2, h3, h4], by simp, by simp, by simp,
      fun k hk => by simp [upd, hk]⟩
  | user =>
    cases ok with
    | true =>
      exact ⟨⟨upd s.vars i (some ⟨d, l, u, some s.next, .ok⟩), s.next + 1, .made s.next :: s.log, .create :: s.calls⟩,
        by simp [Pk.step, hi, h2, h3, h4], by simp, by simp, by simp, fun k hk => by simp [upd, hk]⟩
    | false =>
      exact ⟨{ s with vars := upd s.vars i (some ⟨d, l, u, none, .failed⟩), calls := .create :: s.calls },
        by simp [Pk.step, hi, h2, h3, h4], by simp, by simp, by simp, fun k hk => by simp [upd, hk]⟩

example : Pk.init.vars 3 = none ∧ Pk.Cb.user ≠ .null := ⟨rfl, by decide⟩

/-- **C52.** `destroy()` hands the context to the callback, keeps none and reports the callback's success; without a context a
callback of the application fails. -/
theorem C52_destroy_exact {s : Pk.St} {i : Nat} {v : Pk.Var} (hv : s.vars i = some v) (hn : v.destroyMutex ≠ .null)
    (hl : ∀ r, v.context = some r → Live r s.log) :
    ∃ s', Pk.step s (.destroy i) = .ok s' ∧
      s'.vars i = some { v with context := none, lastStatus := if v.destroyMutex = .user ∧ v.context = none then .failed else .ok } ∧
      s'.calls = (if v.destroyMutex = .user then [.destroy v.context] else []) ++ s.calls := by
  obtain ⟨d, l, u, c, st⟩ := v
  cases d with
  | null => exact absurd rfl hn
  | stub =>
    exact ⟨{ s with vars := upd s.vars i (some ⟨.stub, l, u, none, .ok⟩) }, by simp [Pk.step, hv, Pk.destroyVar], by simp, by simp⟩
  | user =>
    cases c with
    | none =>
      exact ⟨{ s with vars := upd s.vars i (some ⟨.user, l, u, none, .failed⟩), log := .closedNothing :: s.log, calls := .destroy none :: s.calls },
        by simp [Pk.step, hv, Pk.destroyVar], by simp, by simp⟩
    | some r =>
      exact ⟨{ s with vars := upd s.vars i (some ⟨.user, l, u, none, .ok⟩), log := .closed r :: s.log, calls := .destroy (some r) :: s.calls },
        by simp [Pk.step, hv, Pk.destroyVar, hl r rfl], by simp, by simp⟩

example : Live 0 [.made 0] := by decide

/-- **C52 fails.** … but destroying a mutex constructed without a destroy callback calls a null pointer. -/
theorem C52_missing_destroy_ub {s : Pk.St} {i : Nat} {c l u : Pk.Cb} {ok : Bool} (hi : s.vars i = none) :
    runOps Pk.step s [.construct i c .null l u ok, .drop i] = .ub := by
  simp [runOps, Pk.step, hi, Pk.destroyVar]

/-- **C52 fails.** Assigning over a mutex that has a context never destroys that context. -/
theorem C52_assign_leaks {s : Pk.St} (h : Reach Pk.step Pk.careful Pk.init s) {i j r : Nat}
    (hi : Pk.owner s i = some r) (hj : s.vars j ≠ none) :
    ∃ s', Pk.step s (.moveAssign i j) = .ok s' ∧ Live r s'.log ∧ ∀ k, Pk.owner s' k ≠ some r := by
  have hinv := Pk.reach_inv h
  obtain ⟨v, hv⟩ := Option.ne_none_iff_exists'.mp hj
  have hi' : s.vars i ≠ none := by intro e; simp [Pk.owner, e] at hi
  obtain ⟨u, hu⟩ := Option.ne_none_iff_exists'.mp hi'
  refine ⟨{ s with vars := upd (upd s.vars i (some v)) j (some { v with context := none }) },
    by simp [Pk.step, hu, hv], hinv.ledger.ownedLive i r hi, ?_⟩
  intro k hk
  replace hk := (Pk.moved_owner (i := i) hv k).symm.trans hk
  by_cases hkj : k = j
  · subst hkj; simp at hk
  · rw [upd_ne _ _ hkj] at hk
    by_cases hki : k = i
    · subst hki
      rw [upd_self] at hk
      exact hkj (hinv.ledger.unique k j r hi hk)
    · rw [upd_ne _ _ hki] at hk
      exact hki (hinv.ledger.unique k i r hk hi)

/-- **C52 fails.** A moved-from mutex passes a null context to the destroy callback. -/
theorem C52_moved_from_destroys_null {s : Pk.St} {i j : Nat} {v : Pk.Var} (hi : s.vars i = none)
    (hj : s.vars j = some v) (hd : v.destroyMutex = .user) :
    ∃ s', runOps Pk.step s [.moveCtor i j, .drop j] = .ok s' ∧ s'.calls = .destroy none :: s.calls :=
  ⟨{ s with vars := upd (upd (upd s.vars i (some v)) j (some { v with context := none })) j none,
            log := .closedNothing :: s.log, calls := .destroy none :: s.calls },
    by simp [runOps, Pk.step, hi, hj, Pk.destroyVar, hd], rfl⟩

example : ∃ s, Reach Pk.step Pk.careful Pk.init s ∧
    (s.log, s.calls, (List.range 3).map s.vars) =
      ([.closedNothing, .closed 0, .made 0], [.destroy none, .destroy (some 0), .lock (some 0), .lock (some 0), .create],
        List.replicate 3 none) :=
  Reach.witness [.construct 0 .user .user .user .user true, .default 1, .lock 0, .unlock 0, .moveCtor 2 0, .drop 2,
    .drop 1, .drop 0] _ _ (by decide)

namespace Flame
open Own
example := C52_contexts_partial (.visit ([.construct 0 .user .user .user .user true, .default 1, .lock 0, .moveCtor 2 0] : List Pk.Op) (by decide +kernel))
example := C52_unlock_never_called
  (.visit ([.construct 0 .user .user .user .user true, .lock 0, .unlock 0] : List Pk.Op) (by decide +kernel)) (some 0)
example := C52_unlock_locks (s := visit Pk.step Pk.careful Pk.init [.construct 0 .user .user .user .user true]) (i := 0) rfl rfl
example := C52_missing_reported (s := Pk.init) (i := 3) (c := .user) (d := .null) (l := .user) (u := .user) (ok := true) rfl (by simp)
example := C52_missing_destroy_ub (s := Pk.init) (i := 3) (c := .user) (l := .user) (u := .user) (ok := true) rfl
example := C52_assign_leaks (.visit ([.construct 0 .user .user .user .user true, .default 1] : List Pk.Op) (by decide +kernel)) (i := 0) (j := 1)
  (r := 0) (by decide +kernel) (by decide +kernel)
end Flame

end Flame
