import Verif.Net.Tcp

/-! # C74, C75: waiting for bytes, probing a connection, transfer results -/

namespace Flame

open Tcp

namespace Tcp

theorem waitLoop_exact (q : Nat → Int) (number : Nat) : ∀ fuel k (result r : Int), result ≠ number →
    (waitLoop q number fuel k result = .ok r ↔
      ∃ m, k ≤ m ∧ m < k + fuel ∧ q m = r ∧ (∀ i, k ≤ i → i < m → 0 ≤ q i ∧ q i ≠ number) ∧
        (r < 0 ∨ (r = number ∧ m + 1 < k + fuel))) := by
  intro fuel
  induction fuel with
  | zero =>
    intro k result r hr
    simp only [waitLoop, reduceCtorEq, false_iff]
    rintro ⟨m, h1, h2, _⟩
    omega
  | succ fuel ih =>
    intro k result r hr
    simp only [waitLoop, if_neg hr]
    by_cases hq : q k < 0
    · rw [if_pos hq]
      constructor
      · intro h
        injection h with h
        exact ⟨k, by omega, by omega, h, by intro i h1 h2; omega, .inl (by omega)⟩
      · rintro ⟨m, h1, h2, h3, h4, h5⟩
        have : m = k := by
          by_cases hm : m = k
          · exact hm
          · have := h4 k (by omega) (by omega); omega
        subst this
        rw [h3]
    · rw [if_neg hq]
      by_cases hn : q k = (number : Int)
      · cases fuel with
        | zero =>
          simp only [waitLoop, reduceCtorEq, false_iff]
          rintro ⟨m, h1, h2, h3, h4, h5⟩
          have : m = k := by omega
          subst this
          omega
        | succ fuel =>
          simp only [waitLoop, if_pos hn]
          constructor
          · intro h
            injection h with h
            exact ⟨k, by omega, by omega, h, by intro i h1 h2; omega, .inr (by omega)⟩
          · rintro ⟨m, h1, h2, h3, h4, h5⟩
            have : m = k := by
              by_cases hm : m = k
              · exact hm
              · have := h4 k (by omega) (by omega); omega
            subst this
            rw [h3]
      · rw [ih (k + 1) (q k) r hn]
        constructor
        · rintro ⟨m, h1, h2, h3, h4, h5⟩
          refine ⟨m, by omega, by omega, h3, ?_, ?_⟩
          · intro i hi1 hi2
            by_cases hik : i = k
            · subst hik; exact ⟨by omega, hn⟩
            · exact h4 i (by omega) hi2
          · rcases h5 with h5 | h5
            · exact .inl h5
            · exact .inr ⟨h5.1, by omega⟩
        · rintro ⟨m, h1, h2, h3, h4, h5⟩
          have hmk : m ≠ k := by
            intro e; subst e
            rcases h5 with h5 | h5
            · omega
            · exact hn (h3.trans h5.1)
          refine ⟨m, by omega, by omega, h3, fun i hi1 hi2 => h4 i (by omega) hi2, ?_⟩
          rcases h5 with h5 | h5
          · exact .inl h5
          · exact .inr ⟨h5.1, by omega⟩

end Tcp

/-- **C74, exactly.** Asked for at least one byte, `waitBytes` returns `r` (for some amount of fuel) exactly if at some moment the number of
waiting bytes was *equal* to the number asked for, or an error occurred, and neither had happened before. -/
theorem C74_wait_exact (q : Nat → Int) {number : Nat} (hn : 0 < number) (r : Int) :
    (∃ fuel, waitBytes q number fuel = .ok r) ↔
      ∃ m, q m = r ∧ (∀ i, i < m → 0 ≤ q i ∧ q i ≠ number) ∧ (r < 0 ∨ r = number) := by
  constructor
  · rintro ⟨fuel, h⟩
    obtain ⟨m, _, _, h3, h4, h5⟩ := (waitLoop_exact q number fuel 0 0 r (by omega)).mp h
    exact ⟨m, h3, fun i hi => h4 i (Nat.zero_le _) hi, h5.imp id (·.1)⟩
  · rintro ⟨m, h3, h4, h5⟩
    refine ⟨m + 2, (waitLoop_exact q number (m + 2) 0 0 r (by omega)).mpr ⟨m, by omega, by omega, h3, fun i _ hi => h4 i hi, ?_⟩⟩
    exact h5.imp id (fun h => ⟨h, by omega⟩)

/-- **C74, what holds.** A non-negative result is the number asked for, and that many bytes were waiting when it returned. -/
theorem C74_wait_partial (q : Nat → Int) {number fuel : Nat} {r : Int} (h : waitBytes q number fuel = .ok r) (hr : 0 ≤ r) :
    r = number ∧ (0 < number → ∃ m, q m = number) := by
  by_cases hn : 0 < number
  · obtain ⟨m, h1, _, h3⟩ := (C74_wait_exact q hn r).mp ⟨fuel, h⟩
    have : r = number := by omega
    exact ⟨this, fun _ => ⟨m, h1.trans this⟩⟩
  · have hz : number = 0 := by omega
    subst hz
    cases fuel with
    | zero => cases h
    | succ fuel =>
      simp only [waitBytes, waitLoop] at h
      injection h with h
      exact ⟨by simpa using h.symm, fun h => absurd h (by omega)⟩

/-- **C74 fails.** When more bytes than asked for arrive at once (the count goes from below to above without ever being equal) and nobody
reads them, `waitBytes` never returns, although the bytes are there. -/
theorem C74_overshoot_diverges (q : Nat → Int) {number : Nat} (hn : 0 < number) {k : Nat} (hb : ∀ i, i < k → 0 ≤ q i ∧ q i < number)
    (ha : ∀ i, k ≤ i → (number : Int) < q i) (fuel : Nat) : waitBytes q number fuel = .loop := by
  have hne : ∀ r, waitBytes q number fuel ≠ .ok r := by
    intro r h
    obtain ⟨m, h1, _, h3⟩ := (C74_wait_exact q hn r).mp ⟨fuel, h⟩
    by_cases hm : m < k
    · have := hb m hm; omega
    · have := ha m (by omega); omega
  have hub : ∀ fuel k result, waitLoop q number fuel k result ≠ .ub := by
    intro fuel
    induction fuel with
    | zero => intro k result h; cases h
    | succ fuel ih =>
      intro k result
      simp only [waitLoop]
      split
      · simp
      · split
        · simp
        · exact ih _ _
  cases h : waitBytes q number fuel with
  | ok r => exact absurd h (hne r)
  | ub => exact absurd h (hub _ _ _)
  | loop => rfl

/-- **C74 fails.** When the peer closes the connection with fewer bytes sent, `waitBytes` never returns either. -/
theorem C74_closed_diverges (q : Nat → Int) {number : Nat} (h : ∀ i, 0 ≤ q i ∧ q i < number) (fuel : Nat) (r : Int) :
    waitBytes q number fuel ≠ .ok r := by
  have hn : 0 < number := by have := h 0; omega
  intro he
  obtain ⟨m, h1, _, h3⟩ := (C74_wait_exact q hn r).mp ⟨fuel, he⟩
  have := h m
  omega

/-- **C75, exactly.** With working `fcntl`, `alive` answers `false` exactly at an orderly end of the stream, and leaves the descriptor in
blocking mode. -/
theorem C75_alive_exact {p : Peek} (hp : ∀ c, p = .err c → 0 < c) (f : Flags) :
    ((alive true true p f).1 = false ↔ p = .eof) ∧ (alive true true p f).2 = ⟨false, f.async⟩ := by
  refine ⟨?_, rfl⟩
  cases p with
  | data => simp [alive, peekResult]
  | eof => simp [alive, peekResult]
  | err c => have := hp c rfl; simp [alive, peekResult]; omega

/-- **C75 fails.** A connection that is broken (reset, timed out, not connected, bad descriptor: any error code) is reported alive. -/
theorem C75_broken_is_alive {c : Nat} (hc : 0 < c) (f : Flags) : (alive true true (.err c) f).1 = true := by
  simp [alive, peekResult]
  omega

/-- **C75 fails.** A descriptor in non-blocking mode (every descriptor registered for notifications is) is left in blocking mode. -/
theorem C75_nonblock_lost (p : Peek) (f : Flags) (h : f.nonblock = true) : (alive true true p f).2 ≠ f := by
  intro e
  have : (alive true true p f).2.nonblock = true := by rw [e]; exact h
  cases this

/-- **C75, what holds.** A descriptor in blocking mode is left as it was; waiting data means alive, end of stream means not alive; and
when the mode cannot be changed the answer is `false`. -/
theorem C75_alive_partial (f : Flags) (h : f.nonblock = false) (p : Peek) :
    (alive true true p f).2 = f ∧ (alive true true .data f).1 = true ∧ (alive true true .eof f).1 = false ∧
    ∀ b, (alive false b p f) = (false, f) := by
  obtain ⟨n, a⟩ := f
  cases h
  refine ⟨rfl, rfl, rfl, ?_⟩
  intro b
  rfl

/-- **C75 fails.** When the mode cannot be changed back, the answer is `false` whatever the connection is like, and the descriptor stays
non-blocking. -/
theorem C75_stays_nonblocking (p : Peek) (f : Flags) : alive true false p f = (false, ⟨true, f.async⟩) := by
  cases p <;> rfl

/-- **C76, transfers.** The value returned by `send`/`receive` of the classes is the number of bytes moved; a failure gives −1 and the status
becomes the negated error code; success leaves the status. -/
theorem C76_transfer (native : Except Nat Nat) (hc : ∀ c, native = .error c → 0 < c) (status : Int) :
    (∀ n, native = .ok n → transfer native status = ((n : Int), status)) ∧
    (∀ c, native = .error c → transfer native status = (-1, -(c : Int))) := by
  constructor
  · intro n h; subst h; rfl
  · intro c h
    have := hc c h
    subst h
    have h0 : -(c : Int) < 0 := by omega
    simp only [transfer, if_pos h0]

/-- **C76, the status sticks.** A failure recorded earlier is still reported after any number of successful transfers. -/
theorem C76_status_sticks (ns : List Nat) (status : Int) :
    ns.foldl (fun st n => (transfer (.ok n) st).2) status = status := by
  induction ns with
  | nil => rfl
  | cons n ns ih => exact ih

example : waitBytes (fun k => if k < 3 then 0 else 5) 5 10 = .ok 5 := by decide
example : waitBytes (fun k => if k < 3 then 2 else -104) 5 10 = .ok (-104) := by decide
example : ∀ fuel, waitBytes (fun k => if k < 3 then 2 else 8) 5 fuel = .loop :=
  C74_overshoot_diverges _ (by decide) (k := 3) (by intro i h; simp [h]) (by intro i h; simp [Nat.not_lt.mpr h])
example : (alive true true (.err 104) ⟨true, true⟩) = (true, ⟨false, true⟩) := by decide
example : transfer (.error 32) 0 = (-1, -32) := by decide

namespace Flame
open Tcp
example := C74_wait_exact (fun k => if k < 3 then 0 else 5) (number := 5) (by decide) 5
example := C74_wait_partial (fun k => if k < 3 then 0 else 5) (number := 5) (fuel := 10) (r := 5) (by decide) (by decide)
example := C74_closed_diverges (fun k => if k < 3 then 2 else 4) (number := 5) (by intro i; split <;> decide) 10 5
example := C75_alive_exact (p := .err 104) (by rintro _ ⟨⟩; decide) ⟨true, true⟩
example := C75_broken_is_alive (c := 104) (by decide) ⟨true, true⟩
example := C75_nonblock_lost .data ⟨true, true⟩ rfl
example := C75_alive_partial ⟨false, true⟩ rfl .eof
example := C76_transfer (.error 32) (by rintro _ ⟨⟩; decide) 0
end Flame

end Flame
