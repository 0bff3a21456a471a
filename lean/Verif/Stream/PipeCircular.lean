import Verif.Stream.PipeProps

/-!
# C158: circular ranges through a pipe stream
-/

namespace Flame
open PipeS Split Ram

/-- **C158 (partial)**, circular ranges that wrap and whose first piece is transferred entirely: writing appends the range's bytes to the pipe in the order of the range and
says how many; reading takes the pipe's first bytes, puts them into the range in order, leaves the rest of the memory alone and says how many; the status stays.
Missing: ranges that end at the beginning of the memory, do not wrap, or are transferred in part (`C68`). -/
theorem C158_circular_partial {α : Type} (s : PipeS.St α) {mem : List α} {b e k₀ k : Nat} (hb : b < mem.length) (he : e < b) (h0 : 0 < e)
    (hk : mem.length - b ≤ k₀) :
    (s.p.writer = true → writeC s (some k₀) (some k) mem b e = .ok (s.p, (mem.length - b + min k e : Nat),
      s.data ++ bytes mem ((spots .circular mem.length b e).take (mem.length - b + min k e)))) ∧
    (s.p.reader = true → mem.length - b ≤ s.data.length → ∃ c mem', c = mem.length - b + min k (min e (s.data.length - (mem.length - b))) ∧
      readC s (some k₀) (some k) mem b e = .ok (s.p, (c : Nat), s.data.drop c, mem') ∧ mem'.length = mem.length ∧
      bytes mem' ((spots .circular mem.length b e).take c) = s.data.take c ∧
      ∀ q, q ∉ (spots .circular mem.length b e).take c → mem'[q]? = mem[q]?) := by
  have hn : ∀ c : Nat, note s.p (c : Int) = s.p := by
    intro c
    have : (c : Int) ≠ -1 := by omega
    simp [note, this]
  constructor
  · intro hw
    simp only [writeC, via, hw, if_true]
    rw [C68_write_partial hb he h0 hk]
    simp only [Res.bind, hn]
  · intro hr hd
    obtain ⟨mem', h1, h2, h3, h4⟩ := C68_read_partial (k := k) hb he h0 hd hk
    refine ⟨_, mem', rfl, ?_, h2, h3, h4⟩
    simp only [readC, via, hr, if_true]
    rw [h1]
    simp only [Res.bind, hn]

/-- **C158 fails: circular ranges whose second piece fails.** The call returns −1 and the status says failure, although the bytes of the first piece were moved. -/
theorem C158_second_violated {α : Type} (s : PipeS.St α) {mem : List α} {b e k : Nat} (hb : b < mem.length) (he : e ≤ mem.length) (h0 : 0 < e) :
    (s.p.writer = true → writeC s (some k) none mem b e =
      .ok ({ s.p with status := some (-1) }, -1, s.data ++ (mem.drop b).take (min k (mem.length - b)))) ∧
    (s.p.reader = true → ∃ mem', readC s (some k) none mem b e =
      .ok ({ s.p with status := some (-1) }, -1, s.data.drop (min k (min (mem.length - b) s.data.length)), mem') ∧
      ∀ i, i < min k (min (mem.length - b) s.data.length) → mem'[b + i]? = s.data[i]?) := by
  constructor
  · intro hw
    simp only [writeC, via, hw, if_true]
    rw [C68_write_second_violated hb h0 he]
    simp [note, Res.bind, hw]
  · intro hr
    refine ⟨mem.take b ++ s.data.take (min k (min (mem.length - b) s.data.length)) ++ mem.drop (b + min k (min (mem.length - b) s.data.length)), ?_, ?_⟩
    · simp only [readC, via, hr, if_true]
      rw [C68_read_second_violated hb he]
      simp only [note, Res.bind, if_true, hr]
    · intro i hi
      have hl : (mem.take b).length = b := by rw [List.length_take]; omega
      rw [List.append_assoc, List.getElem?_append_right (by omega), hl, Nat.add_sub_cancel_left,
        List.getElem?_append_left (by rw [List.length_take]; omega), List.getElem?_take_of_lt hi]

example := (C158_circular_partial (⟨create true, [1, 2, 3, 4], [], [], false⟩ : PipeS.St Nat) (mem := [5, 6, 7, 8]) (b := 2) (e := 1) (k₀ := 9) (k := 9)
  (by decide) (by decide) (by decide) (by decide)).2 rfl (by decide)
example := (C158_second_violated (⟨create true, [1, 2, 3, 4], [], [], false⟩ : PipeS.St Nat) (mem := [5, 6, 7, 8]) (b := 2) (e := 1) (k := 9)
  (by decide) (by decide) (by decide)).1 rfl
end Flame
