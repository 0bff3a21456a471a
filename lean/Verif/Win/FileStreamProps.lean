import Verif.Win.FileStream
import Verif.Stream.FileOwnProps
import Verif.Stream.SplitProps

/-! # C123: file streams on Windows: who closes the handle, and what a transfer moves -/

namespace Flame.WinFile
open Flame.Own
open Flame.Own.FileS (Op hand)

/-- The POSIX object a Windows object behaves like. -/
def toPosix (v : Var) : FileS.Var := ⟨v.fd, v.own.getD false⟩

def toP (s : St) : FileS.St := ⟨fun i => (s.vars i).map toPosix, s.caller, s.next, s.log⟩

theorem map_upd (f : Nat → Option Var) (i : Nat) (x : Option Var) :
    (fun k => (upd f i x k).map toPosix) = upd (fun k => (f k).map toPosix) i (x.map toPosix) := by
  funext k
  by_cases h : k = i
  · subst h; simp
  · simp [upd, h]

theorem release_sim {v : Var} {log log' : List Ev} (h : release v log = .ok log') :
    FileS.release (toPosix v) log = log' := by
  obtain ⟨fd, own⟩ := v
  rcases own with _ | _ | _ <;> rcases fd with _ | r <;> simp [release, FileS.release, toPosix] at h ⊢ <;> exact h

theorem release_ok {v : Var} (h : v.own ≠ none) (log : List Ev) : ∃ l, release v log = .ok l := by
  obtain ⟨fd, own⟩ := v
  rcases own with _ | _ | _ <;> rcases fd with _ | r <;> simp_all [release]

/-- The default constructor apart from the flag, every careful call does what the POSIX function does. -/
theorem step_sim {s s' : St} {o : Op} (hc : careful s o) (h : step s o = .ok s') :
    FileS.careful (toP s) o ∧ FileS.step (toP s) o = .ok (toP s') := by
  cases o with
  | openFile => cases h; exact ⟨⟨trivial, trivial⟩, rfl⟩
  | closeFile r =>
    refine ⟨⟨hc, trivial⟩, ?_⟩
    simp only [step, release] at h
    cases h
    rfl
  | default i =>
    refine ⟨⟨by simpa [FileS.pre, toP, careful] using hc, trivial⟩, ?_⟩
    cases h
    simp [FileS.step, toP, map_upd, toPosix]
  | make i r own =>
    refine ⟨⟨by simpa [FileS.pre, toP, careful] using hc, trivial⟩, ?_⟩
    cases h
    simp [FileS.step, toP, map_upd, toPosix]
  | moveCtor i j =>
    obtain ⟨h1, h2, h3⟩ := hc
    refine ⟨⟨by simpa [FileS.pre, toP] using ⟨h1, h2⟩, trivial⟩, ?_⟩
    simp only [step] at h
    cases hv : s.vars j with
    | none => exact absurd hv h2
    | some v =>
      obtain ⟨fd, own⟩ := v
      cases own with
      | none => exact absurd rfl (h3 _ hv)
      | some b =>
        rw [hv] at h
        cases h
        simp [FileS.step, toP, map_upd, toPosix, hv]
  | moveAssign i j =>
    obtain ⟨h1, h2, h3, h4, h5⟩ := hc
    cases hi : s.vars i with
    | none => exact absurd hi h1
    | some w =>
      cases hv : s.vars j with
      | none => exact absurd hv h2
      | some v =>
        obtain ⟨fd, own⟩ := v
        cases own with
        | none => exact absurd rfl (h3 _ hv)
        | some b =>
          simp only [step] at h
          rw [hi, hv] at h
          cases h
          refine ⟨⟨by simpa [FileS.pre, toP] using ⟨h1, h2⟩, ?_, h5⟩, ?_⟩
          · rw [FileS.owner_var]
            simp only [toP, hi, Option.map_some, toPosix]
            rw [hi] at h4
            obtain ⟨wf, wo⟩ := w
            rcases wf with _ | r <;> rcases wo with _ | _ | _ <;> simp_all [FileS.held, held]
          · simp [FileS.step, toP, map_upd, toPosix, hv, hi]
  | setFd i fd own =>
    have hc' : s.vars i ≠ none ∧ Written s i ∧ ∀ r, fd = some r → own = true → s.caller r = true := by
      cases fd with
      | none => exact ⟨hc.1, hc.2, by simp⟩
      | some r => exact ⟨hc.1, hc.2.1, by rintro _ ⟨⟩; exact hc.2.2⟩
    obtain ⟨h1, h2, h3⟩ := hc'
    refine ⟨⟨?_, trivial⟩, ?_⟩
    · cases fd with
      | none => simpa [FileS.pre, toP] using h1
      | some r => exact ⟨by simpa [toP] using h1, fun ho => h3 r rfl ho⟩
    · cases hv : s.vars i with
      | none => exact absurd hv h1
      | some v =>
        obtain ⟨l, hl⟩ := release_ok (h2 v hv) s.log
        simp only [step, hv, hl] at h
        cases h
        simp [FileS.step, toP, map_upd, toPosix, hv]
        exact release_sim hl
  | getFd i keep =>
    obtain ⟨h1, h2⟩ := hc
    cases hv : s.vars i with
    | none => exact absurd hv h1
    | some v =>
      obtain ⟨fd, own⟩ := v
      simp only [step, hv] at h
      cases h
      refine ⟨⟨by simpa [FileS.pre, toP] using h1, ?_⟩, ?_⟩
      · cases keep with
        | false => trivial
        | true =>
          have := h2 rfl
          rw [hv] at this
          simp only [Option.bind_some] at this
          subst this
          simp [toP, hv, toPosix]
      · rcases own with _ | _ | _ <;> cases keep <;> cases fd <;> simp [FileS.step, toP, map_upd, toPosix, hv]
  | use i =>
    have hc' : (s.vars i).bind (fun v => v.own) = some true := hc
    cases hv : s.vars i with
    | none => rw [hv] at hc'; cases hc'
    | some v =>
      obtain ⟨fd, own⟩ := v
      rw [hv] at hc'
      simp only [Option.bind_some] at hc'
      subst hc'
      refine ⟨⟨by simp [FileS.pre, toP, hv, toPosix], trivial⟩, ?_⟩
      cases fd <;> simp only [step, hv] at h <;> cases h <;> simp [FileS.step, toP, toPosix, hv]
  | drop i =>
    obtain ⟨h1, h2⟩ := hc
    refine ⟨⟨by simpa [FileS.pre, toP] using h1, trivial⟩, ?_⟩
    cases hv : s.vars i with
    | none => exact absurd hv h1
    | some v =>
      obtain ⟨l, hl⟩ := release_ok (h2 v hv) s.log
      simp only [step, hv, hl] at h
      cases h
      simp [FileS.step, toP, map_upd, hv]
      exact release_sim hl

/-- A careful call is never undefined. -/
theorem step_ok {s : St} {o : Op} (hc : careful s o) : ∃ s', step s o = .ok s' := by
  have key : ∀ i, s.vars i ≠ none → Written s i → ∃ v b, s.vars i = some v ∧ v.own = some b := by
    intro i h1 h2
    cases hv : s.vars i with
    | none => exact absurd hv h1
    | some v =>
      cases hb : v.own with
      | none => exact absurd hb (h2 v hv)
      | some b => exact ⟨v, b, rfl, hb⟩
  cases o with
  | openFile => exact ⟨_, rfl⟩
  | closeFile r => exact ⟨_, rfl⟩
  | default i => exact ⟨_, rfl⟩
  | make i r own => exact ⟨_, rfl⟩
  | moveCtor i j =>
    obtain ⟨⟨fd, own⟩, b, hv, hb⟩ := key j hc.2.1 hc.2.2
    simp only at hb
    subst hb
    (simp only [step, hv]; exact ⟨_, rfl⟩)
  | moveAssign i j =>
    obtain ⟨⟨fd, own⟩, b, hv, hb⟩ := key j hc.2.1 hc.2.2.1
    simp only at hb
    subst hb
    cases hi : s.vars i with
    | none => exact absurd hi hc.1
    | some w => (simp only [step, hv, hi]; exact ⟨_, rfl⟩)
  | setFd i fd own =>
    have hc' : s.vars i ≠ none ∧ Written s i := by
      cases fd with
      | none => exact hc
      | some r => exact ⟨hc.1, hc.2.1⟩
    obtain ⟨v, b, hv, hb⟩ := key i hc'.1 hc'.2
    obtain ⟨l, hl⟩ := release_ok (v := v) (by rw [hb]; simp) s.log
    (simp only [step, hv, hl]; exact ⟨_, rfl⟩)
  | getFd i keep =>
    cases hi : s.vars i with
    | none => exact absurd hi hc.1
    | some w => (simp only [step, hi]; exact ⟨_, rfl⟩)
  | use i =>
    have hc' : (s.vars i).bind (fun v => v.own) = some true := hc
    cases hi : s.vars i with
    | none => rw [hi] at hc'; cases hc'
    | some w =>
      obtain ⟨fd, own⟩ := w
      cases fd with
      | none => (simp only [step, hi]; exact ⟨_, rfl⟩)
      | some r => (simp only [step, hi]; exact ⟨_, rfl⟩)
  | drop i =>
    obtain ⟨v, b, hv, hb⟩ := key i hc.1 hc.2
    obtain ⟨l, hl⟩ := release_ok (v := v) (by rw [hb]; simp) s.log
    (simp only [step, hv, hl]; exact ⟨_, rfl⟩)

theorem reach_sim {s : St} (h : Own.Reach step careful start s) : Own.Reach FileS.step FileS.careful FileS.start (toP s) := by
  induction h with
  | start => exact Own.Reach.start
  | step _ hp he ih => exact Own.Reach.step ih (step_sim hp he).1 (step_sim hp he).2

theorem owner_sim (s : St) (k : Nat) : FileS.owner (toP s) k = owner s k := by
  unfold FileS.owner owner toP
  simp only
  split
  · cases s.vars (k / 2) with
    | none => rfl
    | some v =>
      obtain ⟨fd, own⟩ := v
      rcases fd with _ | r <;> rcases own with _ | _ | _ <;> rfl
  · rfl

end Flame.WinFile

namespace Flame
open Own

/-- C123 (partial: owners are not assigned to, non-owners are not told to continue owning, default constructed streams are first
assigned to): along every execution every handle is closed at most once, used only while open, and has exactly one owner; every
such call succeeds; and when all streams are gone and the program has closed what it is responsible for, every handle was
closed exactly once. -/
theorem C123_streams_partial {s : WinFile.St} (h : Own.Reach WinFile.step WinFile.careful WinFile.start s) :
    Ledger (WinFile.owner s) s.log ∧ (∀ o, WinFile.careful s o → ∃ s', WinFile.step s o = .ok s') ∧
      ((∀ i, s.vars i = none) → (∀ r, s.caller r = false) → ReleasedOnce s.log) := by
  have hp := C69_streams_partial (WinFile.reach_sim h)
  refine ⟨hp.1.congr fun k => (WinFile.owner_sim s k).symm, fun o => WinFile.step_ok, fun h1 h2 => hp.2 (fun i => ?_) h2⟩
  simp [WinFile.toP, h1]

/-- A default constructed stream that is assigned to, replaced, and closed. -/
example : ∃ s, Own.Reach WinFile.step WinFile.careful WinFile.start s ∧
    s.log = [.closed 1, .used 1, .closed 0, .made 1, .made 0] ∧ s.vars 0 = none :=
  Own.Reach.witness (step := WinFile.step) (pre := WinFile.careful) (s₀ := WinFile.start)
    [.openFile, .openFile, .default 0, .make 1 0 true, .moveAssign 0 1, .setFd 0 (some 1) true, .use 0, .drop 0, .drop 1]
    (fun s => (s.log, s.vars 0)) (_, _) (by decide +kernel) |>.elim fun s h => ⟨s, h.1, congrArg Prod.fst h.2, congrArg Prod.snd h.2⟩

/-- C123: the Windows streams refine the POSIX ones (C69): every careful call has the same effect on handles and ownership. -/
theorem C123_refines_posix {s s' : WinFile.St} {o : FileS.Op} (hc : WinFile.careful s o) (h : WinFile.step s o = .ok s') :
    FileS.step (WinFile.toP s) o = .ok (WinFile.toP s') := (WinFile.step_sim hc h).2

/-- C123 violated: a default constructed stream cannot be destroyed, given a handle, or moved from: each reads the flag its
constructor did not write. -/
theorem C123_default_ub {s s' : WinFile.St} {i : Nat} (h : WinFile.step s (.default i) = .ok s') (j : Nat) (fd : Option Nat)
    (own : Bool) : WinFile.step s' (.drop i) = .ub ∧ WinFile.step s' (.setFd i fd own) = .ub ∧
      WinFile.step s' (.moveCtor j i) = .ub ∧ WinFile.step s' (.moveAssign j i) = .ub := by
  cases h
  simp only [WinFile.step, upd_self, WinFile.release, and_self, true_and]
  by_cases hj : j = i
  · subst hj; simp
  · simp only [upd, hj, if_false]
    cases s.vars j <;> rfl

example : ∃ s', WinFile.step WinFile.start (.default 0) = .ok s' := ⟨_, rfl⟩

/-- C123: exactly those calls are undefined on a declared stream: those that read the flag of a default constructed one. -/
theorem C123_ub_iff {s : WinFile.St} {i : Nat} {v : WinFile.Var} (hv : s.vars i = some v) (fd : Option Nat) (own : Bool) :
    (WinFile.step s (.drop i) = .ub ↔ v.own = none) ∧ (WinFile.step s (.setFd i fd own) = .ub ↔ v.own = none) ∧
      (∀ j, WinFile.step s (.moveCtor j i) = .ub ↔ v.own = none) ∧
      (∀ j w, s.vars j = some w → (WinFile.step s (.moveAssign j i) = .ub ↔ v.own = none)) ∧
      (∀ keep, WinFile.step s (.getFd i keep) ≠ .ub) := by
  obtain ⟨f, o⟩ := v
  refine ⟨?_, ?_, fun j => ?_, fun j w hw => ?_, fun keep => ?_⟩ <;>
    (rcases o with _ | _ | _ <;> rcases f with _ | r <;> simp [WinFile.step, hv, WinFile.release, *])

/-- C123 violated: assigning to a stream that owns a handle loses the handle: nothing is closed, and nobody owns it any more. -/
theorem C123_assign_leaks {s s' : WinFile.St} (h : Own.Reach WinFile.step WinFile.careful WinFile.start s) {i j r : Nat}
    (hi : s.vars i = some ⟨some r, some true⟩) (hs : WinFile.step s (.moveAssign i j) = .ok s') :
    s'.log = s.log ∧ (i ≠ j → ∀ k, WinFile.owner s' k ≠ some r) := by
  have hl := (C123_streams_partial h).1
  have own_var : ∀ (t : WinFile.St) k, WinFile.owner t (2 * k) = WinFile.held (t.vars k) := by
    intro t k; unfold WinFile.owner; rw [if_pos (by omega), show 2 * k / 2 = k by omega]
  have own_cal : ∀ (t : WinFile.St) k, WinFile.owner t (2 * k + 1) = if t.caller k then some k else none := by
    intro t k; unfold WinFile.owner; rw [if_neg (by omega), show (2 * k + 1) / 2 = k by omega]
  have hri : WinFile.owner s (2 * i) = some r := by rw [own_var, hi]; rfl
  simp only [WinFile.step, hi] at hs
  cases hj : s.vars j with
  | none => rw [hj] at hs; cases hs
  | some w =>
    obtain ⟨fd, own⟩ := w
    cases own with
    | none => rw [hj] at hs; cases hs
    | some b =>
      rw [hj] at hs
      cases hs
      refine ⟨rfl, fun hij k hk => ?_⟩
      rcases FileS.parity k with ⟨q, rfl | rfl⟩
      · rw [own_var] at hk
        by_cases hqj : q = j
        · subst hqj; simp [WinFile.held] at hk
        · by_cases hqi : q = i
          · subst hqi
            simp only [upd, hqj, if_false, if_true] at hk
            have : WinFile.owner s (2 * j) = some r := by rw [own_var, hj]; exact hk
            have := hl.unique _ _ _ hri this
            omega
          · simp only [upd, hqj, hqi, if_false] at hk
            have := hl.unique _ _ _ hri ((own_var s q).trans hk)
            omega
      · rw [own_cal] at hk
        have := hl.unique _ _ _ hri ((own_cal s q).trans hk)
        omega

example : ∃ s, Own.Reach WinFile.step WinFile.careful WinFile.start s ∧ s.vars 0 = some ⟨some 0, some true⟩ :=
  Own.Reach.witness (step := WinFile.step) (pre := WinFile.careful) (s₀ := WinFile.start) [.openFile, .make 0 0 true]
    (fun s => s.vars 0) _ (by decide +kernel)

/-- C123: ranges shorter than 2^32 bytes are read and written exactly as on POSIX (C68), whatever the native calls do. -/
theorem C123_transfers_like_posix {α : Type} {data mem : List α} {b e : Nat} (hm : mem.length < 2 ^ 32)
    (hb : b < mem.length) (he : e ≤ mem.length) (r₀ r₁ : Option Nat) :
    WinFile.readLinear r₀ data mem b e = Split.readLinear r₀ data mem b e ∧
      WinFile.writeLinear r₀ data mem b e = Split.writeLinear r₀ data mem b e ∧
      WinFile.readCircular r₀ r₁ data mem b e = Split.readCircular r₀ r₁ data mem b e ∧
      WinFile.writeCircular r₀ r₁ data mem b e = Split.writeCircular r₀ r₁ data mem b e := by
  have h1 : ∀ (r : Option Nat) (d m : List α) (b e : Nat), e < 2 ^ 32 →
      WinFile.readLinear r d m b e = Split.readLinear r d m b e := by
    intro r d m b e h
    unfold WinFile.readLinear Split.readLinear
    rw [Nat.mod_eq_of_lt (by omega)]
  have h2 : ∀ (r : Option Nat) (d m : List α) (b e : Nat), e < 2 ^ 32 →
      WinFile.writeLinear r d m b e = Split.writeLinear r d m b e := by
    intro r d m b e h
    unfold WinFile.writeLinear Split.writeLinear
    rw [Nat.mod_eq_of_lt (by omega)]
  have h1' := fun (r : Option Nat) (d m : List α) => h1 r d m 0 e (by omega)
  have h2' := fun (r : Option Nat) (d m : List α) => h2 r d m 0 e (by omega)
  refine ⟨h1 _ _ _ _ _ (by omega), h2 _ _ _ _ _ (by omega), ?_, ?_⟩
  · simp only [WinFile.readCircular, Split.readCircular, SplitLemmas.split_ok hb, Res.ok_bind]
    rw [h1 _ _ _ _ _ hm]
    simp only [show ((0 : Int) = ((0 : Nat) : Int)) from rfl, h1']
  · simp only [WinFile.writeCircular, Split.writeCircular, SplitLemmas.split_ok hb, Res.ok_bind]
    rw [h2 _ _ _ _ _ hm]
    simp only [show ((0 : Int) = ((0 : Nat) : Int)) from rfl, h2']

example : WinFile.readCircular (some 9) (some 9) [1, 2, 3, 4, 5] [0, 0, 0, 0, 0] 3 2 = .ok (4, [5], [3, 4, 0, 1, 2]) := by decide

/-- C123 violated: a range whose length is a multiple of 2^32 is never transferred: the call succeeds with 0 bytes, which for a
read means the end of the file. -/
theorem C123_long_range_violated {α : Type} {data mem : List α} {b e : Nat} (hbe : b < e) (he : e ≤ mem.length)
    (hl : (e - b) % 2 ^ 32 = 0) (k : Nat) :
    WinFile.readLinear (some k) data mem b e = .ok (0, data, mem) ∧
      WinFile.writeLinear (some k) data mem b e = .ok (0, data) := by
  have ht : ((e : Int) - b).toNat = e - b := by omega
  constructor
  · unfold WinFile.readLinear
    rw [if_pos (by omega), ht, hl]
    simp [Split.sysRead]
    omega
  · unfold WinFile.writeLinear
    rw [if_pos (by omega), ht, hl]
    simp [Split.sysWrite]
    omega

example : ((2 ^ 32 + 5) - 5) % 2 ^ 32 = 0 := by decide

/-- C123, long ranges exactly: a call transfers what a POSIX call for the first `length mod 2^32` bytes of the range transfers. -/
theorem C123_long_range_exact {α : Type} {data mem : List α} {b e : Nat} (hl : (e - b) % 2 ^ 32 ≠ 0) (r : Option Nat) :
    WinFile.readLinear r data mem b e = Split.readLinear r data mem b ((b + (e - b) % 2 ^ 32 : Nat) : Int) ∧
      WinFile.writeLinear r data mem b e = Split.writeLinear r data mem b ((b + (e - b) % 2 ^ 32 : Nat) : Int) := by
  have hbe : b < e := by
    apply Classical.byContradiction
    intro c
    rw [show e - b = 0 by omega] at hl
    exact hl rfl
  have ht : ((e : Int) - b).toNat = e - b := by omega
  have ht' : (((b + (e - b) % 2 ^ 32 : Nat) : Int) - b).toNat = (e - b) % 2 ^ 32 := by omega
  have hp : ((b + (e - b) % 2 ^ 32 : Nat) : Int) - b > 0 := by omega
  constructor
  · unfold WinFile.readLinear Split.readLinear
    rw [if_pos (by omega), if_pos hp, ht, ht']
  · unfold WinFile.writeLinear Split.writeLinear
    rw [if_pos (by omega), if_pos hp, ht, ht']

example : ((2 ^ 32 + 7) - 4) % 2 ^ 32 = 3 := by decide

namespace Flame
open Own
private abbrev oneWinFile : WinFile.St := visit WinFile.step WinFile.careful WinFile.start ([.openFile, .make 0 0 true] : List FileS.Op)
example := C123_refines_posix (s := oneWinFile) (o := .moveCtor 1 0) (by decide +kernel) rfl
example := C123_ub_iff (s := oneWinFile) (i := 0) rfl (some 7) true
end Flame

end Flame
