import Verif.Conc.Counter
import Mathlib.Tactic.Ring

/-!
# C39 — the shared counter counts exactly
-/

namespace Flame
open Conc

/-- The sequential counter: arithmetic modulo `2 ^ w`. -/
def counterSpec (w : Nat) : Nat → Counter.Op → Nat × Option Nat
  | a, .inc => ((a + 1) % 2 ^ w, none)
  | a, .dec => (if a = 0 then 2 ^ w - 1 else a - 1, none)
  | a, .current => (a, some a)

def counterRefines (w : Nat) : Refines (Counter.obj w) (fun _ => True) (counterSpec w) where
  abs := id
  inv m := m < 2 ^ w
  mid o m₀ l m := m = m₀ ∧ match o, l with
    | .inc, .incLoad => True
    | .inc, .incStore v => v = m₀
    | .dec, .decLoad => True
    | .dec, .decStore v => v = m₀
    | .current, .read => True
    | _, _ => False
  left
    | .incLoad => 1
    | .decLoad => 1
    | _ => 0
  enter o m _ _ := by cases o <;> exact ⟨rfl, trivial⟩
  safe o m₀ l m _ _ := by cases l <;> exact ⟨_, rfl⟩
  go o m₀ l m m' l' _ h hb := by
    obtain ⟨rfl, h⟩ := h
    cases o <;> cases l <;> simp [Counter.obj] at h hb
    all_goals
      obtain ⟨rfl, rfl⟩ := hb
      simp
  finish o m₀ l m m' r hi h hb := by
    obtain ⟨rfl, h⟩ := h
    have hp : 0 < 2 ^ w := Nat.two_pow_pos w
    cases o <;> cases l <;> simp [Counter.obj] at h hb
    · obtain ⟨rfl, rfl⟩ := hb
      subst h
      exact ⟨Nat.mod_lt _ hp, rfl⟩
    · obtain ⟨rfl, rfl⟩ := hb
      subst h
      refine ⟨Nat.mod_lt _ hp, ?_⟩
      simp only [counterSpec, id]
      split
      · rename_i e
        subst e
        rw [Nat.mod_eq_of_lt (by omega)]
        simp
      · rw [show ∀ a : Nat, a ≠ 0 → a + 2 ^ w - 1 = (a - 1) + 2 ^ w from fun a _ => by omega]
        · rw [Nat.add_mod_right, Nat.mod_eq_of_lt (by omega)]
        · assumption
    · obtain ⟨rfl, rfl⟩ := hb
      exact ⟨hi, rfl⟩

/-- C39: any interleaving of `++`, `--` and `current` by any number of threads is explained by performing them one at
a time. -/
theorem C39_linearizable {w m : Nat} (hm : m < 2 ^ w) {s} (h : Run (Counter.obj w) (fun _ => True) m s) :
    Linearizable (counterSpec w) m s.hist :=
  h.linearizable (counterRefines w) hm

/-- Two threads interleaved: thread 1 reads while thread 0 waits; the wrap from 255 to 0 is seen. -/
example : ∃ s, Run (Counter.obj 8) (fun _ => True) 255 s ∧
    (s.hist, s.mem, s.lock) = ([.inv 0 .inc, .inv 1 .current, .inv 2 .inc, .ret 1 (some 0), .ret 0 none], 0, none) :=
  Run.witness [(0, some .inc), (1, some .current), (2, some .inc), (0, none), (0, none), (0, none), (0, none),
    (1, none), (1, none), (1, none), (1, none), (0, none)] (fun s => (s.hist, s.mem, s.lock)) _ (by simp)
    (by decide +kernel)

/-- The value after a sequential execution. -/
theorem counter_legal {w : Nat} {l : List (Nat × Counter.Op × Option Nat)} {a b : Nat} (ha : a < 2 ^ w)
    (h : Legal (counterSpec w) a l b) :
    b < 2 ^ w ∧ (b : Int) = ((a : Int) + performed (· = .inc) l - performed (· = .dec) l) % (2 : Int) ^ w := by
  have hp : 0 < 2 ^ w := Nat.two_pow_pos w
  induction l generalizing a with
  | nil =>
    simp only [Legal] at h
    subst h
    refine ⟨ha, ?_⟩
    simp only [performed, List.countP_nil]
    rw [Int.emod_eq_of_lt (by omega)]
    · omega
    · have : (2 : Int) ^ w = ((2 ^ w : Nat) : Int) := by simp
      rw [this]; omega
  | cons q l ih =>
    obtain ⟨t, o, r⟩ := q
    have hcast : (2 : Int) ^ w = ((2 ^ w : Nat) : Int) := by simp
    cases o with
    | inc =>
      obtain ⟨_, h2⟩ := h
      simp only [counterSpec] at h2
      obtain ⟨i1, i2⟩ := ih (Nat.mod_lt _ hp) h2
      refine ⟨i1, ?_⟩
      rw [i2]
      simp only [performed, List.countP_cons]
      simp only [hcast]
      rw [Int.natCast_emod, Int.sub_emod, Int.add_emod, Int.emod_emod, ← Int.add_emod, ← Int.sub_emod]
      congr 1
      simp
      ring
    | dec =>
      obtain ⟨_, h2⟩ := h
      simp only [counterSpec] at h2
      obtain ⟨i1, i2⟩ := ih (by split <;> omega) h2
      refine ⟨i1, ?_⟩
      rw [i2]
      simp only [performed, List.countP_cons]
      simp only [hcast]
      split
      · rename_i e
        subst e
        rw [Int.ofNat_sub (by omega)]
        symm
        rw [← Int.add_mul_emod_self_left ((_ : Int) - _) ((2 ^ w : Nat) : Int) 1]
        congr 1
        simp
        ring
      · rename_i e
        rw [Int.ofNat_sub (by omega)]
        congr 1
        simp
        ring
    | current =>
      obtain ⟨_, h2⟩ := h
      simp only [counterSpec] at h2
      obtain ⟨i1, i2⟩ := ih ha h2
      refine ⟨i1, ?_⟩
      rw [i2]
      simp [performed]

/-- C39: once all threads are done, the counter holds the initial value plus the increments called minus the
decrements called, modulo `2 ^ w` — no update is ever lost. -/
theorem C39_exact {w m : Nat} (hm : m < 2 ^ w) {s} (h : Run (Counter.obj w) (fun _ => True) m s)
    (hq : ∀ t, s.thr t = .idle) :
    (s.mem : Int) = ((m : Int) + calls (· = .inc) s.hist - calls (· = .dec) s.hist) % (2 : Int) ^ w := by
  obtain ⟨a, l, ha, sim⟩ := h.atomic (counterRefines w) hm
  have hidle : ∀ t, (fun t => (s.thr t).view) t = .idle := fun t => by simp [hq t, TS.view]
  have e : s.mem = a := (sim.quiet fun t o l' => by rw [hq t]; exact fun e => nomatch e).2
  rw [e, ha.quiescent _ hidle, ha.quiescent _ hidle]
  exact (counter_legal hm ha.legal).2

example : ∃ s, Run (Counter.obj 8) (fun _ => True) 255 s ∧
    (s.thr 0, s.thr 1, s.mem, calls (· = Counter.Op.inc) s.hist, calls (· = Counter.Op.dec) s.hist) = (.idle, .idle, 0, 2, 1) :=
  Run.witness [(0, some Counter.Op.inc), (1, some .dec), (1, none), (1, none), (1, none), (1, none), (0, none), (0, none),
    (0, none), (0, none), (0, none), (1, none), (1, some Counter.Op.inc), (1, none), (1, none), (1, none), (1, none), (1, none)]
    (fun s => (s.thr 0, s.thr 1, s.mem, calls (· = Counter.Op.inc) s.hist,
      calls (· = Counter.Op.dec) s.hist)) _ (by simp)
    (by decide +kernel)

theorem Legal.split {A Op Ret : Type} {run : A → Op → A × Ret} {l₁ l₂ : List (Nat × Op × Ret)} {a b : A}
    (h : Legal run a (l₁ ++ l₂) b) : ∃ c, Legal run a l₁ c ∧ Legal run c l₂ b := by
  induction l₁ generalizing a with
  | nil => exact ⟨a, rfl, h⟩
  | cons q l₁ ih =>
    obtain ⟨t, o, r⟩ := q
    obtain ⟨c, h1, h2⟩ := ih h.2
    exact ⟨c, ⟨h.1, h1⟩, h2⟩

/-- C39: there is an order of the operations, respecting each thread's order and real time, in which every value read
is the initial value plus the increments before it minus the decrements before it. -/
theorem C39_reads {w m : Nat} (hm : m < 2 ^ w) {s} (h : Run (Counter.obj w) (fun _ => True) m s) :
    ∃ l : List (Nat × Counter.Op × Option Nat),
      (∀ t, (callsOf t s.hist).take (partOf t l).length = (partOf t l).map (·.1) ∧
        retsOf t s.hist = ((partOf t l).map (·.2)).take (retsOf t s.hist).length) ∧
      (∀ h₁ h₂, s.hist = h₁ ++ h₂ → ∃ l₁ l₂, l = l₁ ++ l₂ ∧ ∀ t, (retsOf t h₁).length ≤ (partOf t l₁).length ∧
        (partOf t l₁).length ≤ (callsOf t h₁).length) ∧
      (∀ l₁ t r l₂, l = l₁ ++ (t, .current, r) :: l₂ → ∃ v : Nat, r = some v ∧
        (v : Int) = ((m : Int) + performed (· = .inc) l₁ - performed (· = .dec) l₁) % (2 : Int) ^ w) := by
  obtain ⟨a, l, ha, _⟩ := h.atomic (counterRefines w) hm
  refine ⟨l, ?_, ?_, ?_⟩
  · intro t
    obtain ⟨e1, e2⟩ := ha.threads t
    constructor
    · rw [e1]; simp
    · rw [← e2]; simp
  · intro h₁ h₂ e
    exact ha.realTime e
  · intro l₁ t r l₂ e
    have hl := ha.legal
    rw [e] at hl
    obtain ⟨c, h1, h2⟩ := Legal.split hl
    have hc : some c = r := h2.1
    exact ⟨c, hc.symm, (counter_legal hm h1).2⟩

/-- C39: no thread gets stuck: the thread holding the lock, and any thread when nobody holds it, completes its
operation by its own steps. -/
theorem C39_no_deadlock {w m : Nat} (hm : m < 2 ^ w) {s} (h : Run (Counter.obj w) (fun _ => True) m s) {t : Nat}
    (hl : s.lock = none ∨ s.lock = some t) : ∃ s', Alone (Counter.obj w) t s s' ∧ s'.thr t = .idle ∧ s'.lock = none :=
  let ⟨s', a, b, c, _⟩ := h.completes (counterRefines w) hm hl
  ⟨s', a, b, c⟩

namespace Flame
open Conc
private theorem ctr_run : ∃ s, Run (Counter.obj 8) (fun _ => True) 255 s ∧ (s.hist, s.lock) = ([.inv 0 .inc, .inv 1 .current, .ret 0 none], none) :=
  Run.witness [(0, some .inc), (1, some .current), (0, none), (0, none), (0, none), (0, none), (0, none)] (fun s => (s.hist, s.lock)) _ (by simp)
    (by decide +kernel)
example := ctr_run.imp fun _ h => C39_reads (by decide) h.1
example := ctr_run.imp fun _ h => C39_no_deadlock (by decide) h.1 (t := 1) (.inl (congrArg Prod.snd h.2))
end Flame

end Flame
