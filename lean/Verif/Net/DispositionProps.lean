import Verif.Net.Disposition

/-!
# C155: SIGPOLL reaches the library while registrars are used, and is the program's own otherwise

The specification: whether the signal ended the process, of which sockets with data the library was told, what the calls reported, and the
disposition compared with the one the program chose.
-/

namespace Flame
open Flame.Dispo
open Flame.Own (upd upd_self upd_ne Reach runPre)

namespace DispoLemmas

structure Inv (s : Dispo.St) : Prop where
  mine : s.chosen ≠ .lib
  before : s.life = .before → s.status = 0 ∧ s.disp = s.chosen ∧ s.said = [] ∧ ∀ fd, s.reg fd = false
  alive : s.life = .alive → s.status = 0 → s.disp = .lib ∧ s.old = s.chosen
  failed : s.status ≠ 0 → s.status < 0 ∧ s.disp = s.chosen ∧ ∀ fd, s.reg fd = false
  over : s.life = .over → s.disp = s.chosen
  said : ∀ x ∈ s.said, x = s.status

theorem inv_step {s s' : Dispo.St} {o : Dispo.Op} (h : Inv s) (hp : alone s o) (hs : Dispo.step s o = .ok s') : Inv s' := by
  obtain ⟨h1, h2, h3, h4, h5, h6⟩ := h
  obtain ⟨hp, ha⟩ := hp
  cases o with
  | construct mask act =>
    obtain ⟨_, hb, _, hact⟩ := hp
    simp only at ha
    subst ha
    obtain ⟨b1, b2, b3, b4⟩ := h2 hb
    cases act with
    | none =>
      simp only [Dispo.step, Res.ok.injEq] at hs
      subst hs
      exact ⟨h1, by simp, fun _ _ => ⟨rfl, b2⟩, fun h => absurd b1 h, by simp, by simp [b3]⟩
    | some c =>
      simp only [Dispo.step, Res.ok.injEq] at hs
      subst hs
      have hc : c ≠ 0 := fun e => hact (e ▸ rfl)
      exact ⟨h1, by simp, fun _ (h : -(c : Int) = 0) => by omega, fun _ => ⟨by show -(c : Int) < 0; omega, b2, b4⟩, by simp, by simp [b3]⟩
  | add fd | remove fd =>
    simp only [Dispo.step] at hs
    obtain ⟨_, hl⟩ := hp
    split at hs <;> simp only [Res.ok.injEq] at hs <;> subst hs <;> constructor <;> grind
  | data fd =>
    simp only [Dispo.step] at hs
    split at hs
    · split at hs <;> simp only [Res.ok.injEq] at hs <;> subst hs <;> exact ⟨h1, h2, h3, h4, h5, h6⟩
    · simp only [Res.ok.injEq] at hs
      subst hs
      exact ⟨h1, h2, h3, h4, h5, h6⟩
  | install d =>
    simp only [Dispo.step, Res.ok.injEq] at hs
    subst hs
    obtain ⟨_, hd⟩ := hp
    constructor <;> grind
  | destroy =>
    simp only [Dispo.step] at hs
    obtain ⟨_, hl⟩ := hp
    split at hs <;> simp only [Res.ok.injEq] at hs <;> subst hs <;> constructor <;> grind

theorem inv_start {d : Disp} (hd : d ≠ .lib) : Inv (Dispo.start d) := by
  constructor <;> simp [Dispo.start, hd]

theorem reach_inv {d : Disp} (hd : d ≠ .lib) {s : Dispo.St} (h : Reach Dispo.step alone (Dispo.start d) s) : Inv s :=
  h.inv (inv_start hd) fun _ _ _ => inv_step

structure Safe (s : Dispo.St) : Prop where
  inv : Inv s
  killed : s.killed = false
  over : s.life = .over → ∀ fd, s.reg fd = false
  told : s.told = s.came

theorem safe_step {s s' : Dispo.St} {o : Dispo.Op} (h : Safe s) (hp : careful s o) (hs : Dispo.step s o = .ok s') : Safe s' := by
  obtain ⟨hi, hk, ho, ht⟩ := h
  suffices h : s'.killed = false ∧ (s'.life = .over → ∀ fd, s'.reg fd = false) ∧ s'.told = s'.came from
    ⟨inv_step hi hp.1 hs, h.1, h.2.1, h.2.2⟩
  obtain ⟨⟨hp, ha⟩, hc⟩ := hp
  cases o with
  | construct mask act =>
    cases mask <;> cases act <;> simp only [Dispo.step, Res.ok.injEq] at hs <;> subst hs <;> simp_all
  | add fd | remove fd =>
    simp only [Dispo.step] at hs
    obtain ⟨_, hl⟩ := hp
    split at hs <;> simp only [Res.ok.injEq] at hs <;> subst hs <;> simp_all
  | data fd =>
    simp only [Dispo.step] at hs
    split at hs
    · rename_i hr
      have hd : s.disp = .lib := by
        cases hl : s.life with
        | before => have := (hi.before hl).2.2.2 fd; simp_all
        | alive =>
          by_cases h0 : s.status = 0
          · exact (hi.alive hl h0).1
          · have := (hi.failed h0).2.2 fd; simp_all
        | over => have := ho hl fd; simp_all
      rw [hd] at hs
      simp only [Res.ok.injEq] at hs
      subst hs
      simp_all
    · simp only [Res.ok.injEq] at hs
      subst hs
      exact ⟨hk, ho, ht⟩
  | install d =>
    simp only [Dispo.step, Res.ok.injEq] at hs
    subst hs
    exact ⟨hk, ho, ht⟩
  | destroy =>
    simp only [Dispo.step] at hs
    split at hs <;> simp only [Res.ok.injEq] at hs <;> subst hs <;> simp_all

end DispoLemmas

open DispoLemmas

/-- **C155, part.** If the signal set can be built, the program leaves the signal alone while registrars are used and every socket is removed
before the end, the signal never ends the process and the library is told of all data on registered sockets, in order. -/
theorem C155_partial {d : Disp} (hd : d ≠ .lib) {s : Dispo.St} (h : Reach Dispo.step careful (Dispo.start d) s) :
    s.killed = false ∧ s.told = s.came := by
  have := h.inv (P := Safe) ⟨inv_start hd, rfl, by simp [Dispo.start], rfl⟩ fun _ _ _ => safe_step
  exact ⟨this.killed, this.told⟩

/-- **C155, part: the disposition.** If the signal set can be built and the program leaves the signal alone while registrars are used: before
the first use, after the end, and always when the handler could not be installed, the disposition is the one the program chose; in between it
is the library's handler exactly when the calls report success. -/
theorem C155_restored_partial {d : Disp} (hd : d ≠ .lib) {s : Dispo.St} (h : Reach Dispo.step alone (Dispo.start d) s) :
    (s.disp = .lib ↔ s.life = .alive ∧ s.status = 0) ∧ (s.disp ≠ .lib → s.disp = s.chosen) ∧
      (∀ x ∈ s.said, x = s.status) ∧ (s.status ≠ 0 → s.status < 0 ∧ ∀ fd, s.reg fd = false) := by
  have hi := reach_inv hd h
  have key : (s.life = .alive ∧ s.status = 0) ∨ s.disp = s.chosen := by
    cases hl : s.life with
    | before => exact .inr (hi.before hl).2.1
    | alive =>
      by_cases h0 : s.status = 0
      · exact .inl ⟨rfl, h0⟩
      · exact .inr (hi.failed h0).2.1
    | over => exact .inr (hi.over hl)
  refine ⟨⟨fun he => ?_, fun ⟨a, b⟩ => (hi.alive a b).1⟩, fun hn => ?_, hi.said, fun h0 => ⟨(hi.failed h0).1, (hi.failed h0).2.2⟩⟩
  · rcases key with k | k
    · exact k
    · exact absurd (k ▸ he) hi.mine
  · rcases key with k | k
    · exact absurd (hi.alive k.1 k.2).1 hn
    · exact k

/-- **C155 fails: at the end.** A socket that is still registered when the catcher is destroyed goes on raising the signal: if the program
never set the disposition, the next data ends the process. -/
theorem C155_exit_violated {s : Dispo.St} (h : Reach Dispo.step alone (Dispo.start .dfl) s) (hl : s.life = .alive) (h0 : s.status = 0)
    (hc : s.chosen = .dfl) (hk : s.killed = false) {fd : Nat} (hr : s.reg fd = true) :
    (runPre Dispo.step Dispo.pre s [.destroy, .data fd]).map Dispo.St.killed = some true := by
  have := ((reach_inv (by simp) h).alive hl h0).2
  simp [runPre, Dispo.pre, Dispo.step, *]

/-- **C155 fails: overwritten.** A handler the program installs while the catcher lives is replaced, when the catcher is destroyed, by the
disposition from before its construction. -/
theorem C155_overwritten_violated {d : Disp} (hd : d ≠ .lib) {s : Dispo.St} (h : Reach Dispo.step alone (Dispo.start d) s)
    (hl : s.life = .alive) (h0 : s.status = 0) (hk : s.killed = false) (n : Nat) :
    (runPre Dispo.step Dispo.pre s [.install (.own n), .destroy]).map (fun t => (t.disp, t.chosen)) = some (s.chosen, .own n) := by
  have := ((reach_inv hd h).alive hl h0).2
  simp [runPre, Dispo.pre, Dispo.step, *]

/-- **C155 fails: taken.** With a handler of the program installed while the catcher lives, registering a socket reports success and the
library is not told of its data. -/
theorem C155_taken_violated {s : Dispo.St} (hl : s.life = .alive) (h0 : s.status = 0) (hk : s.killed = false) (n fd : Nat) :
    (runPre Dispo.step Dispo.pre s [.install (.own n), .add fd, .data fd]).map (fun t => (t.said, t.came, t.told)) =
      some (s.said ++ [0], s.came ++ [fd], s.told) := by
  simp [runPre, Dispo.pre, Dispo.step, upd_self, *]

/-- **C155 fails: no signal set.** If the signal set cannot be built the handler is not installed, yet registering reports success; the next
data ends a process that never set the disposition. -/
theorem C155_unset_violated (e fd : Nat) :
    (runPre Dispo.step Dispo.pre (Dispo.start .dfl) [.construct (some (e + 1)) none, .add fd, .data fd]).map (fun t => (t.said, t.killed)) =
      some ([0], true) := by
  simp [runPre, Dispo.pre, Dispo.step, Dispo.start, upd_self]

/-- **C155 fails: reset.** In that case the destructor sets the default disposition, whatever the program had chosen. -/
theorem C155_reset_violated (d : Disp) (e : Nat) :
    (runPre Dispo.step Dispo.pre (Dispo.start d) [.construct (some (e + 1)) none, .destroy]).map (fun t => (t.disp, t.chosen)) =
      some (.dfl, d) := by
  simp [runPre, Dispo.pre, Dispo.step, Dispo.start]

/-! ## Answers and arrivals, from the history -/

/-- Specification: is the operation a request to a registrar? -/
def DispoLemmas.isRequest : Dispo.Op → Bool
  | .add _ | .remove _ => true
  | _ => false

/-- Specification: the descriptors whose data comes while the last request for them was to add. -/
def DispoLemmas.asked (reg : Nat → Bool) : List Dispo.Op → List Nat
  | [] => []
  | .add fd :: os => asked (upd reg fd true) os
  | .remove fd :: os => asked (upd reg fd false) os
  | .data fd :: os => if reg fd then fd :: asked reg os else asked reg os
  | _ :: os => asked reg os

namespace DispoLemmas

theorem upd_false (fd : Nat) : upd (fun _ => false) fd false = fun _ : Nat => false := by
  funext k; by_cases e : k = fd
  · subst e; simp
  · rw [upd_ne _ _ e]

theorem history : ∀ (os : List Dispo.Op) (s s' : Dispo.St), (s.life = .before → s.status = 0 ∧ s.reg = fun _ => false) →
    (s.status ≠ 0 → s.reg = fun _ => false) → runPre Dispo.step Dispo.pre s os = some s' →
    s'.said = s.said ++ List.replicate (os.countP isRequest) s'.status ∧ (s.life ≠ .before → s'.status = s.status) ∧
      s'.came = s.came ++ if s'.status = 0 then asked s.reg os else []
  | [], s, s', _, _, h => by
    simp only [runPre, Option.some.injEq] at h
    subst h
    simp [asked]
  | o :: os, s, s', hb, hn, h => by
    have history' := fun (_ : List Dispo.Op) {s1 : Dispo.St} (h : runPre Dispo.step Dispo.pre s1 os = some s') a b => history os s1 s' a b h
    simp only [runPre] at h
    split at h
    · next hp =>
      cases o with
      | construct mask act =>
        obtain ⟨hk, hl, hm, ha⟩ := hp
        obtain ⟨hs, hr⟩ := hb hl
        simp only [Dispo.step] at h
        split at h
        · next s1 e =>
          have : s1.life = .alive ∧ s1.reg = s.reg ∧ s1.said = s.said ∧ s1.came = s.came := by
            split at e
            · cases e; exact ⟨rfl, rfl, rfl, rfl⟩
            · split at e <;> cases e <;> exact ⟨rfl, rfl, rfl, rfl⟩
          obtain ⟨e1, e2, e3, e4⟩ := this
          obtain ⟨g1, g2, g3⟩ := history os s1 s' (by simp [e1]) (fun _ => by rw [e2, hr]) h
          refine ⟨?_, fun hc => absurd hl hc, ?_⟩
          · rw [g1, e3]; simp [isRequest]
          · rw [g3, e2, e4]; rfl
        · cases h
      | add fd =>
        obtain ⟨hk, hl⟩ := hp
        simp only [Dispo.step] at h
        by_cases hs : s.status = 0
        · rw [if_neg (fun c => c hs)] at h
          simp only at h
          obtain ⟨g1, g2, g3⟩ := history' os h (by simp [hl]) (fun hc => absurd hs hc)
          have g2 := g2 (by simp [hl])
          refine ⟨?_, fun _ => g2, ?_⟩
          · rw [g1, g2]; simp [isRequest, hs, List.replicate_succ, List.countP_cons]
          · rw [g3]; simp [asked]
        · rw [if_pos hs] at h
          simp only at h
          obtain ⟨g1, g2, g3⟩ := history' os h (by simp [hl]) (fun _ => hn hs)
          have g2 := g2 (by simp [hl])
          refine ⟨?_, fun _ => g2, ?_⟩
          · rw [g1, g2]; simp [isRequest, List.replicate_succ, List.countP_cons]
          · rw [g3, g2]; simp [hs]
      | remove fd =>
        obtain ⟨hk, hl⟩ := hp
        simp only [Dispo.step] at h
        by_cases hs : s.status = 0
        · rw [if_neg (fun c => c hs)] at h
          simp only at h
          obtain ⟨g1, g2, g3⟩ := history' os h (by simp [hl]) (fun hc => absurd hs hc)
          have g2 := g2 (by simp [hl])
          refine ⟨?_, fun _ => g2, ?_⟩
          · rw [g1, g2]; simp [isRequest, hs, List.replicate_succ, List.countP_cons]
          · rw [g3]; simp [asked]
        · rw [if_pos hs] at h
          simp only at h
          obtain ⟨g1, g2, g3⟩ := history' os h (by simp [hl]) (fun _ => hn hs)
          have g2 := g2 (by simp [hl])
          refine ⟨?_, fun _ => g2, ?_⟩
          · rw [g1, g2]; simp [isRequest, List.replicate_succ, List.countP_cons]
          · rw [g3, g2]; simp [hs]
      | data fd =>
        simp only [Dispo.step] at h
        by_cases hr : s.reg fd = true
        · have hs : s.status = 0 := Classical.byContradiction fun hc => by rw [hn hc] at hr; cases hr
          have hl : s.life ≠ .before := fun hc => by rw [(hb hc).2] at hr; cases hr
          simp only [hr, if_true] at h
          have main : ∀ s1 : Dispo.St, runPre Dispo.step Dispo.pre s1 os = some s' →
              s1.life = s.life → s1.status = s.status → s1.reg = s.reg → s1.said = s.said → s1.came = s.came ++ [fd] →
              s'.said = s.said ++ List.replicate ((Dispo.Op.data fd :: os).countP isRequest) s'.status ∧ (s.life ≠ .before → s'.status = s.status) ∧
                s'.came = s.came ++ if s'.status = 0 then asked s.reg (.data fd :: os) else [] := by
            intro s1 h e1 e2 e3 e4 e5
            obtain ⟨g1, g2, g3⟩ := history os s1 s' (by rw [e1, e2, e3]; exact hb) (by rw [e2, e3]; exact hn) h
            have g2 := g2 (by rw [e1]; exact hl)
            refine ⟨by rw [g1, e4]; simp [isRequest], fun _ => by rw [g2, e2], ?_⟩
            rw [g3, g2, e2, e5, e3]
            simp [hs, asked, hr]
          cases hd : s.disp <;> simp only [hd] at h <;> exact main _ h rfl rfl rfl rfl rfl
        · simp only [hr] at h
          obtain ⟨g1, g2, g3⟩ := history os s s' hb hn h
          refine ⟨by rw [g1]; simp [isRequest], g2, ?_⟩
          rw [g3]
          simp [asked, hr]
      | install d =>
        simp only [Dispo.step] at h
        obtain ⟨g1, g2, g3⟩ := history' os h (by simpa using hb) (by simpa using hn)
        exact ⟨by rw [g1]; simp [isRequest], g2, by rw [g3]; rfl⟩
      | destroy =>
        obtain ⟨hk, hl⟩ := hp
        simp only [Dispo.step] at h
        have hl' : s.life ≠ .before := by rw [hl]; exact Dispo.Life.noConfusion
        by_cases hs : s.status = 0
        · rw [if_neg (fun c => c hs)] at h
          simp only at h
          obtain ⟨g1, g2, g3⟩ := history' os h (by simp) (fun hc => absurd hs hc)
          exact ⟨by rw [g1]; simp [isRequest], fun _ => g2 (by simp), by rw [g3]; rfl⟩
        · rw [if_pos hs] at h
          simp only at h
          obtain ⟨g1, g2, g3⟩ := history' os h (by simp) (fun _ => hn hs)
          exact ⟨by rw [g1]; simp [isRequest], fun _ => g2 (by simp), by rw [g3]; rfl⟩
    · cases h

end DispoLemmas

/-- **C155, answers and arrivals.** Every request is answered, with the status of the catcher's constructor; data raises the signal exactly for the descriptors
whose last request was to add, if that status is success, and never otherwise. -/
theorem C155_answers {d : Disp} {os : List Dispo.Op} {s : Dispo.St} (h : runPre Dispo.step Dispo.pre (Dispo.start d) os = some s) :
    s.said = List.replicate (os.countP DispoLemmas.isRequest) s.status ∧
      s.came = if s.status = 0 then DispoLemmas.asked (fun _ => false) os else [] := by
  obtain ⟨g1, _, g3⟩ := DispoLemmas.history os _ s (by simp [Dispo.start]) (by simp [Dispo.start]) h
  exact ⟨by simpa [Dispo.start] using g1, by simpa [Dispo.start] using g3⟩

example : (runPre Dispo.step Dispo.pre (Dispo.start .ign) [.construct none none, .add 3, .data 3, .data 4, .remove 3, .data 3]).map (fun t => (t.said, t.came)) =
    some ([0, 0], [3]) := by decide
example : (runPre Dispo.step Dispo.pre (Dispo.start .ign) [.construct none (some 22), .add 3, .data 3, .remove 3]).map (fun t => (t.said, t.came)) =
    some ([-22, -22], []) := by decide

/-! ## Concrete cases -/

/-- The program installs a handler, uses two sockets, removes them and ends. -/
example : ∃ s, Reach Dispo.step careful (Dispo.start .dfl) s ∧ s.told = [4, 3, 4] ∧ s.disp = .own 7 ∧ s.life = .over := by
  refine ⟨_, .step (o := .destroy) (.step (o := .remove 3) (.step (o := .remove 4) (.step (o := .data 4) (.step (o := .data 3)
    (.step (o := .data 4) (.step (o := .add 4) (.step (o := .add 3) (.step (o := .construct none none) (.step (o := .install (.own 7)) .start
    ?_ rfl) ?_ rfl) ?_ rfl) ?_ rfl) ?_ rfl) ?_ rfl) ?_ rfl) ?_ rfl) ?_ rfl) ?_ rfl, rfl, rfl, rfl⟩ <;>
    simp [careful, alone, Dispo.pre, Dispo.start, upd] <;> grind

/-- The handler cannot be installed: registering reports the error. -/
example : ∃ s, Reach Dispo.step careful (Dispo.start .ign) s ∧ s.said = [-22] ∧ s.disp = .ign := by
  refine ⟨_, .step (o := .add 3) (.step (o := .construct none (some 22)) .start ?_ rfl) ?_ rfl, rfl, rfl⟩ <;>
    simp [careful, alone, Dispo.pre, Dispo.start]

/-- A state as in `C155_exit_violated`, `C155_overwritten_violated` and `C155_taken_violated`. -/
example : ∃ s, Reach Dispo.step alone (Dispo.start .dfl) s ∧ s.life = .alive ∧ s.status = 0 ∧ s.chosen = .dfl ∧ s.killed = false ∧
    s.reg 3 = true := by
  refine ⟨_, .step (o := .add 3) (.step (o := .construct none none) .start ?_ rfl) ?_ rfl, ?_⟩ <;>
    simp [alone, Dispo.pre, Dispo.start, upd_self]

namespace Flame
open Flame.Dispo
open Flame.Own (upd upd_self upd_ne Reach runPre)
private theorem dispo_alone : ∃ s, Reach Dispo.step alone (Dispo.start .dfl) s ∧ s.life = .alive ∧ s.status = 0 ∧ s.chosen = .dfl ∧ s.killed = false ∧
    s.reg 3 = true := by
  refine ⟨_, .step (o := .add 3) (.step (o := .construct none none) .start ?_ rfl) ?_ rfl, ?_⟩ <;>
    simp [alone, Dispo.pre, Dispo.start, upd_self]
private theorem dispo_careful : ∃ s, Reach Dispo.step careful (Dispo.start .ign) s ∧ s.said = [-22] ∧ s.disp = .ign := by
  refine ⟨_, .step (o := .add 3) (.step (o := .construct none (some 22)) .start ?_ rfl) ?_ rfl, rfl, rfl⟩ <;>
    simp [careful, alone, Dispo.pre, Dispo.start]
example := dispo_careful.imp fun _ h => C155_partial (by decide) h.1
example := dispo_alone.imp fun _ h => C155_restored_partial (by decide) h.1
example := dispo_alone.imp fun _ h => C155_exit_violated h.1 h.2.1 h.2.2.1 h.2.2.2.1 h.2.2.2.2.1 h.2.2.2.2.2
example := dispo_alone.imp fun _ h => C155_overwritten_violated (by decide) h.1 h.2.1 h.2.2.1 h.2.2.2.2.1 7
example := dispo_alone.imp fun _ h => C155_taken_violated h.2.1 h.2.2.1 h.2.2.2.2.1 7 3
end Flame

end Flame
