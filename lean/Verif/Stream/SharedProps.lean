import Verif.Stream.Shared
import Verif.Stream.SplitProps

/-!
# C191: what is written into a file through streams is read back through streams
-/

namespace Flame
open FileS Split
open Flame.Own (upd upd_self upd_ne)
variable {α : Type}

namespace FileS

theorem write_eq (s : St α) (d : Nat) (ret : Option Nat) {mem : List α} {b e : Nat} (he : e ≤ mem.length) :
    ∃ c xs, FileS.write s d ret mem b e = .ok (⟨put s.file (s.pos d) xs, upd s.pos d (s.pos d + xs.length)⟩, c) ∧ xs = (mem.drop b).take c.toNat ∧
      (ret ≠ none → b < e → (c = -1 → False) ∧ c.toNat = min (ret.getD 0) (e - b)) ∧ (ret = none ∨ e ≤ b → c = -1) := by
  simp only [FileS.write, C68_write_linear_exact (file := []) he]
  cases ret with
  | none => exact ⟨-1, [], rfl, by simp, by simp, by simp⟩
  | some k =>
    by_cases h : b < e
    · refine ⟨(min k (e - b) : Nat), (mem.drop b).take (min k (e - b)), by simp only [h, if_true]; rfl, ?_, ?_, ?_⟩
      · rw [Int.toNat_natCast]
      · intro _ _
        exact ⟨fun e => by omega, by simp⟩
      · intro hh; rcases hh with hh | hh
        · cases hh
        · omega
    · exact ⟨-1, [], by simp only [h, if_false]; rfl, by simp, fun _ h' => absurd h' h, by simp⟩

theorem read_eq (s : St α) (d : Nat) (ret : Option Nat) {mem : List α} {b e : Nat} (he : e ≤ mem.length) (hp : s.pos d ≤ s.file.length) :
    ∃ c mem', FileS.read s d ret mem b e = .ok (⟨s.file, upd s.pos d (s.pos d + c.toNat)⟩, c, mem') ∧
      (mem'.drop b).take c.toNat = (s.file.drop (s.pos d)).take c.toNat ∧ s.pos d + c.toNat ≤ s.file.length ∧
      (ret ≠ none → b < e → c = (min (ret.getD 0) (min (e - b) (s.file.length - s.pos d)) : Nat)) ∧ (ret = none ∨ e ≤ b → c = -1) := by
  simp only [FileS.read, C68_read_linear_exact he]
  cases ret with
  | none => exact ⟨-1, mem, by simp [Res.bind], by simp, by simpa using hp, by simp, by simp⟩
  | some k =>
    by_cases h : b < e
    · have hl : (s.file.drop (s.pos d)).length = s.file.length - s.pos d := by simp
      generalize hm : min k (min (e - b) (s.file.drop (s.pos d)).length) = m
      have hm1 : m ≤ s.file.length - s.pos d := by omega
      have hm2 : m ≤ e - b := by omega
      refine ⟨(m : Nat), mem.take b ++ (s.file.drop (s.pos d)).take m ++ mem.drop (b + m), ?_, ?_, ?_, ?_, ?_⟩
      · simp only [h, if_true, Res.ok_bind, Int.toNat_natCast, hm]
        rw [show (s.file.drop (s.pos d)).length - ((s.file.drop (s.pos d)).drop m).length = m by simp; omega]
      · rw [Int.toNat_natCast]
        have hb : (mem.take b).length = b := by simp; omega
        have hx : ((s.file.drop (s.pos d)).take m).length = m := by simp; omega
        rw [List.append_assoc, List.drop_append_of_le_length (by omega), List.drop_of_length_le (by omega), List.nil_append,
          List.take_append_of_le_length (by omega), List.take_of_length_le (by omega)]
      · rw [Int.toNat_natCast]; omega
      · intro _ _; simp only [Option.getD_some]; rw [← hl, hm]
      · intro hh; rcases hh with hh | hh
        · cases hh
        · omega
    · exact ⟨-1, mem, by simp [h, Res.bind], by simp, by simpa using hp, fun _ h' => absurd h' h, by simp⟩

/-- The ranges lie in their memory, and only streams of the description `d` write. -/
def onlyWriter (d : Nat) (_ : World α) : Op α → Prop
  | .write k _ mem _ e => k = d ∧ e ≤ mem.length
  | .read _ _ mem _ e => e ≤ mem.length

structure Inv (f : List α) (d : Nat) (w : World α) : Prop where
  file : w.st.file = f ++ w.sent
  top : w.st.pos d = w.st.file.length
  none : w.got d = []
  reader : ∀ k, k ≠ d → w.st.pos k = (w.got k).length ∧ w.got k = w.st.file.take (w.got k).length
  le : ∀ k, w.st.pos k ≤ w.st.file.length

theorem inv_step {f : List α} {d : Nat} {w w' : World α} {o : Op α} (h : Inv f d w) (hp : onlyWriter d w o) (hs : FileS.step w o = .ok w') : Inv f d w' := by
  cases o with
  | write k ret mem b e =>
    obtain ⟨rfl, he⟩ := hp
    obtain ⟨c, xs, a, hx, _⟩ := write_eq w.st k ret (b := b) he
    simp only [FileS.step, a, Res.ok_bind] at hs
    injection hs with hs
    subst hs
    have hput : put w.st.file (w.st.pos k) xs = w.st.file ++ xs := by
      simp only [put, h.top, List.take_length, List.drop_of_length_le (show w.st.file.length ≤ w.st.file.length + xs.length by omega), List.append_nil]
    refine ⟨?_, ?_, h.none, ?_, ?_⟩
    · show put _ _ _ = _
      rw [hput, h.file, ← hx, List.append_assoc]
    · show upd _ _ _ _ = (put _ _ _).length
      rw [hput, upd_self, h.top, List.length_append]
    · intro j hj
      obtain ⟨r1, r2⟩ := h.reader j hj
      have hle := h.le j
      refine ⟨by show upd _ _ _ _ = _; rw [upd_ne _ _ hj]; exact r1, ?_⟩
      show w.got j = (put _ _ _).take _
      have e : (w.st.file ++ xs).take (w.got j).length = w.st.file.take (w.got j).length := List.take_append_of_le_length (by omega)
      rw [hput]
      exact r2.trans e.symm
    · intro j
      show upd _ _ _ _ ≤ (put _ _ _).length
      rw [hput, List.length_append]
      by_cases hj : j = k
      · subst hj; rw [upd_self, h.top]; exact Nat.le_refl _
      · rw [upd_ne _ _ hj]; have := h.le j; omega
  | read k ret mem b e =>
    obtain ⟨c, mem', a, hx, hle, _⟩ := read_eq w.st k ret (b := b) hp (h.le k)
    simp only [FileS.step, a, Res.ok_bind] at hs
    injection hs with hs
    subst hs
    have hpos : ∀ j, upd w.st.pos k (w.st.pos k + c.toNat) j ≤ w.st.file.length := by
      intro j
      by_cases hj : j = k
      · subst hj; rw [upd_self]; exact hle
      · rw [upd_ne _ _ hj]; exact h.le j
    by_cases hk : k = d
    · subst hk
      have h0 : c.toNat = 0 := by have := h.top; omega
      have hu : upd w.st.pos k (w.st.pos k + c.toNat) = w.st.pos := by
        funext j
        by_cases hj : j = k
        · subst hj; rw [upd_self, h0]; rfl
        · rw [upd_ne _ _ hj]
      have hg : upd w.got k (w.got k ++ (mem'.drop b).take c.toNat) = w.got := by
        funext j
        by_cases hj : j = k
        · subst hj; rw [upd_self, h0]; simp
        · rw [upd_ne _ _ hj]
      rw [hu, hg]
      exact ⟨h.file, h.top, h.none, h.reader, h.le⟩
    · refine ⟨h.file, ?_, ?_, ?_, hpos⟩
      · show upd _ _ _ _ = _
        rw [upd_ne _ _ (Ne.symm hk)]; exact h.top
      · show upd _ _ _ _ = _
        rw [upd_ne _ _ (Ne.symm hk)]; exact h.none
      · intro j hj
        show upd w.st.pos k (w.st.pos k + c.toNat) j = (upd w.got k (w.got k ++ (mem'.drop b).take c.toNat) j).length ∧
          upd w.got k (w.got k ++ (mem'.drop b).take c.toNat) j = w.st.file.take (upd w.got k (w.got k ++ (mem'.drop b).take c.toNat) j).length
        by_cases hjk : j = k
        · subst hjk
          obtain ⟨r1, r2⟩ := h.reader j hj
          simp only [upd_self, hx]
          have hlen : ((w.st.file.drop (w.st.pos j)).take c.toNat).length = c.toNat := by simp; omega
          refine ⟨by rw [List.length_append, hlen, r1], ?_⟩
          rw [List.length_append, hlen, List.take_add, ← r2, r1]
        · rw [upd_ne _ _ hjk, upd_ne _ _ hjk]
          exact h.reader j hj

theorem inv_reach {f : List α} {d : Nat} {w : World α} (h : Own.Reach FileS.step (onlyWriter d) (FileS.start f d) w) : Inv f d w := by
  refine Own.Reach.inv (P := Inv f d) ?_ (fun _ _ _ hi hp hs => inv_step hi hp hs) h
  refine ⟨by simp [start], by simp [start], rfl, ?_, ?_⟩
  · intro k hk; simp [start, hk]
  · intro k
    simp only [start]
    split
    · exact Nat.le_refl _
    · exact Nat.zero_le _

end FileS

/-- **C191, what holds.**  If all writing streams share one open file description: for every history of transfers, short and failing ones included, the file is what it was followed by
exactly the bytes the writers reported, in order; the readers of any other description have received a prefix of it; and a read of one of them that asks for the rest gets the
rest. -/
theorem C191_partial {f : List α} {d : Nat} {w : World α} (h : Own.Reach FileS.step (onlyWriter d) (FileS.start f d) w) :
    w.st.file = f ++ w.sent ∧
    ∀ k, k ≠ d → w.got k <+: f ++ w.sent ∧
      ∀ n mem b e, e ≤ mem.length → b < e → (f ++ w.sent).length ≤ n → (f ++ w.sent).length ≤ (w.got k).length + (e - b) →
        ∃ w', FileS.step w (.read k (some n) mem b e) = .ok w' ∧ w'.got k = f ++ w.sent := by
  have hi := inv_reach h
  refine ⟨hi.file, fun k hk => ?_⟩
  obtain ⟨r1, r2⟩ := hi.reader k hk
  rw [← hi.file]
  refine ⟨r2 ▸ List.take_prefix _ _, fun n mem b e he hbe hn hm => ?_⟩
  obtain ⟨c, mem', a, hx, hle, hc, _⟩ := read_eq w.st k (some n) (b := b) he (hi.le k)
  have hc := hc (by simp) hbe
  refine ⟨⟨⟨w.st.file, upd w.st.pos k (w.st.pos k + c.toNat)⟩, w.sent, upd w.got k (w.got k ++ (mem'.drop b).take c.toNat)⟩,
    by simp only [FileS.step, a, Res.ok_bind], ?_⟩
  show upd _ _ _ _ = _
  rw [upd_self, hx, hc, Int.toNat_natCast, Option.getD_some, List.take_of_length_le (by simp; omega), r1]
  conv => lhs; lhs; rw [r2]
  exact List.take_append_drop _ _

/-- **C191 fails: one description for both.**  A reader made from the writer's descriptor (or a duplicate of it) never receives anything, whatever was written: every read of it that
does not fail returns 0, the end of the file. -/
theorem C191_same_description_violated {f : List α} {d : Nat} {w : World α} (h : Own.Reach FileS.step (onlyWriter d) (FileS.start f d) w) :
    w.got d = [] ∧ ∀ n mem b e, e ≤ mem.length → b < e → ∃ w', FileS.read w.st d (some n) mem b e = .ok w' ∧ w'.2.1 = 0 := by
  have hi := inv_reach h
  refine ⟨hi.none, fun n mem b e he hbe => ?_⟩
  obtain ⟨c, mem', a, _, _, hc, _⟩ := read_eq w.st d (some n) (b := b) he (hi.le d)
  refine ⟨_, a, ?_⟩
  have := hc (by simp) hbe
  rw [hi.top] at this
  simpa using this

/-- **C191 fails: two descriptions for writing.**  Writers that opened the file separately overwrite each other: of two transfers into a new file that report all their bytes, both are in the
file exactly if one of them is empty. -/
theorem C191_two_writers_violated {d d' : Nat} (hd : d ≠ d') {xs ys : List α} {n m : Nat} (hn : xs.length ≤ n) (hm : ys.length ≤ m) (p : Nat → Nat) (hp : p d = 0) (hp' : p d' = 0) :
    ∃ w, runOps FileS.step ⟨⟨[], p⟩, [], fun _ => []⟩ [.write d (some n) xs 0 xs.length, .write d' (some m) ys 0 ys.length] = .ok w ∧
      w.sent = xs ++ ys ∧ w.st.file = ys ++ xs.drop ys.length ∧ (w.st.file = w.sent ↔ xs = [] ∨ ys = []) := by
  obtain ⟨c, zs, a, hz, hc, hc'⟩ := write_eq (⟨[], p⟩ : St α) d (some n) (b := 0) (Nat.le_refl xs.length)
  have hzs : zs = xs := by
    rw [hz]
    by_cases h0 : 0 < xs.length
    · have := (hc (by simp) h0).2
      rw [this, List.drop_zero, List.take_of_length_le (by simp; omega)]
    · have hxs : xs = [] := List.length_eq_zero_iff.mp (by omega)
      rw [hxs]; simp
  subst hzs
  obtain ⟨c2, zs2, a2, hz2, hc2, hc2'⟩ := write_eq (⟨put [] (p d) zs, upd p d (p d + zs.length)⟩ : St α) d' (some m) (b := 0) (Nat.le_refl ys.length)
  have hzs2 : zs2 = ys := by
    rw [hz2]
    by_cases h0 : 0 < ys.length
    · have := (hc2 (by simp) h0).2
      rw [this, List.drop_zero, List.take_of_length_le (by simp; omega)]
    · have hys : ys = [] := List.length_eq_zero_iff.mp (by omega)
      rw [hys]; simp
  subst hzs2
  refine ⟨⟨⟨put (put [] (p d) zs) (upd p d (p d + zs.length) d') zs2, upd (upd p d (p d + zs.length)) d' (upd p d (p d + zs.length) d' + zs2.length)⟩,
      [] ++ (zs.drop 0).take c.toNat ++ (zs2.drop 0).take c2.toNat, fun _ => []⟩, ?_, ?_, ?_, ?_⟩
  · simp only [runOps, FileS.step, a, a2, Res.ok_bind]
  · show [] ++ _ ++ _ = _
    rw [← hz, ← hz2]; rfl
  · show put _ _ _ = _
    rw [upd_ne _ _ (Ne.symm hd), hp']
    simp [put]
  · have e1 : put (put [] (p d) zs) (upd p d (p d + zs.length) d') zs2 = zs2 ++ zs.drop zs2.length := by
      rw [upd_ne _ _ (Ne.symm hd), hp']
      simp [put]
    show put _ _ _ = [] ++ _ ++ _ ↔ _
    rw [e1, ← hz, ← hz2, List.nil_append]
    constructor
    · intro h
      have := congrArg List.length h
      simp only [List.length_append, List.length_drop] at this
      by_cases h0 : zs = []
      · exact .inl h0
      · right
        have : 0 < zs.length := List.length_pos_iff.mpr h0
        exact List.length_eq_zero_iff.mp (by omega)
    · rintro (rfl | rfl) <;> simp

/-! ## Concrete cases -/

/-- A writer with a short and a failing transfer, and a reader that reads in between. -/
example : ∃ w : World Nat, Own.Reach FileS.step (onlyWriter 0) (FileS.start [9] 0) w ∧ w.st.file = [9, 1, 2, 3] ∧ w.got 1 = [9, 1] ∧ w.sent = [1, 2, 3] := by
  refine ⟨_, .step (o := .write 0 none [7] 0 1) (.step (o := .write 0 (some 5) [0, 3] 1 2) (.step (o := .read 1 (some 2) [0, 0, 0] 0 3)
    (.step (o := .write 0 (some 2) [1, 2, 3] 0 3) .start ⟨rfl, by simp⟩ rfl) (by simp [onlyWriter]) rfl) ⟨rfl, by simp⟩ rfl) ⟨rfl, by simp⟩ rfl, rfl, rfl, rfl⟩

example : ∃ w, runOps FileS.step ⟨⟨[], fun _ => 0⟩, [], fun _ => []⟩ [.write 0 (some 3) [1, 2, 3] 0 3, .write 1 (some 2) [7, 8] 0 2] = .ok w ∧
    w.st.file = [7, 8, 3] := ⟨_, rfl, rfl⟩

namespace Flame
open FileS Split
example := C191_partial (f := [9]) (d := 0) (.step (o := .write 0 (some 2) [1, 2, 3] 0 3) .start ⟨rfl, by simp⟩ rfl)
example := C191_same_description_violated (f := [9]) (d := 0) (.step (o := .write 0 (some 2) [1, 2, 3] 0 3) .start ⟨rfl, by simp⟩ rfl)
example := C191_two_writers_violated (d := 0) (d' := 1) (by decide) (xs := [1, 2, 3]) (ys := [7, 8]) (n := 3) (m := 2) (by decide) (by decide)
  (fun _ => 0) rfl rfl
end Flame

end Flame
