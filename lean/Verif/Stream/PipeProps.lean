import Verif.Stream.Pipe
import Verif.Stream.SplitProps
import Verif.Own.Spec

/-!
# C158: what a pipe stream carries and reports
-/

namespace Flame
open Flame.Own Flame.Split Flame.PipeS

namespace PipeSLemmas

/-- Linear ranges inside the buffer that are not empty. -/
def proper {α : Type} (_ : PipeS.St α) : PipeS.Op α → Prop
  | .read _ mem b e | .write _ mem b e => b < e ∧ e ≤ mem.length

instance {α : Type} (s : PipeS.St α) (o : PipeS.Op α) : Decidable (proper s o) := by
  cases o <;> (unfold proper; infer_instance)

structure Inv {α : Type} (ok : Bool) (s : PipeS.St α) : Prop where
  status : s.p.status = some (if s.failed then -1 else 0)
  reader : s.p.reader = ok
  writer : s.p.writer = ok
  fifo : s.sent = s.received ++ s.data

theorem inv_step {α : Type} {ok : Bool} {s s' : PipeS.St α} {o : PipeS.Op α} (h : Inv ok s) (hp : proper s o)
    (hs : PipeS.step s o = .ok s') : Inv ok s' := by
  obtain ⟨h1, h2, h3, h4⟩ := h
  cases o with
  | read ret mem b e =>
    obtain ⟨hb, he⟩ := hp
    simp only [PipeS.step, PipeS.read] at hs
    rw [C68_read_linear_exact he] at hs
    have hlt : (0 : Int) < (e : Int) - b := by omega
    cases hv : via s.p.reader ret with
    | none =>
      simp [hv, PipeS.note, hb, Res.bind] at hs
      subst hs
      exact ⟨by simp, h2, h3, by simpa using h4⟩
    | some k =>
      simp only [hv, hb, if_true, Res.bind] at hs
      generalize hm : min k (min (e - b) s.data.length) = m at hs
      have hn : ((m : Nat) : Int) ≠ -1 := by omega
      simp [PipeS.note, hn, hv] at hs
      subst hs
      refine ⟨by simpa using h1, h2, h3, ?_⟩
      have hml : m ≤ s.data.length := by omega
      have hbl : (mem.take b).length = b := by simp; omega
      have : ((List.take b mem ++ (List.take m s.data ++ List.drop (b + m) mem)).drop b).take m = s.data.take m := by
        rw [List.drop_left' hbl, List.take_left' (by simp [hml])]
      simp only [this, List.append_assoc, List.take_append_drop]
      exact h4
  | write ret mem b e =>
    obtain ⟨hb, he⟩ := hp
    simp only [PipeS.step, PipeS.write] at hs
    rw [C68_write_linear_exact he] at hs
    cases hv : via s.p.writer ret with
    | none =>
      simp [hv, PipeS.note, hb, Res.bind] at hs
      subst hs
      exact ⟨by simp, h2, h3, by simpa using h4⟩
    | some k =>
      simp only [hv, hb, if_true, Res.bind] at hs
      generalize hm : min k (e - b) = m at hs
      have hn : ((m : Nat) : Int) ≠ -1 := by omega
      simp [PipeS.note, hn, hv] at hs
      subst hs
      refine ⟨by simpa using h1, h2, h3, ?_⟩
      simp [h4]

end PipeSLemmas
open PipeSLemmas

/-- **C158, part.** A pipe stream that is neither moved nor given circular or empty ranges: in every history the bytes written are
those read, in order, and those still in the pipe, and the status is success exactly if the pipe was made and no transfer has
failed. -/
theorem C158_partial {α : Type} {ok : Bool} {s : PipeS.St α} (h : Own.Reach PipeS.step proper (PipeS.start ok) s) :
    s.sent = s.received ++ s.data ∧ getStatus s.p = .ok (if s.failed then -1 else 0) := by
  have H : Inv ok s := by
    refine Own.Reach.inv (P := Inv ok) ?_ ?_ h
    · cases ok <;> exact ⟨rfl, rfl, rfl, rfl⟩
    · intro s o s' hi hp hs
      exact inv_step hi hp hs
  exact ⟨H.fifo, by simp [getStatus, H.status]⟩

/-- In a history that started with a failure nothing is ever moved. -/
theorem C158_unmade {α : Type} {s : PipeS.St α} (h : Own.Reach PipeS.step proper (PipeS.start false) s) :
    s.sent = [] ∧ s.received = [] ∧ s.failed = true := by
  have H : Inv false s ∧ s.sent = [] ∧ s.received = [] ∧ s.failed = true := by
    refine Own.Reach.inv (P := fun s => Inv false s ∧ s.sent = [] ∧ s.received = [] ∧ s.failed = true) ?_ ?_ h
    · exact ⟨⟨rfl, rfl, rfl, rfl⟩, rfl, rfl, rfl⟩
    · intro s o s' hi hp hs
      refine ⟨inv_step hi.1 hp hs, ?_⟩
      obtain ⟨hi, h1, h2, h3⟩ := hi
      cases o with
      | read ret mem b e =>
        simp only [PipeS.step, PipeS.read] at hs
        rw [C68_read_linear_exact hp.2] at hs
        simp [via, hi.reader, hp.1, Res.bind] at hs
        subst hs
        exact ⟨h1, by simp [h2], by simp [h3]⟩
      | write ret mem b e =>
        simp only [PipeS.step, PipeS.write] at hs
        rw [C68_write_linear_exact hp.2] at hs
        simp [via, hi.writer, hp.1, Res.bind] at hs
        subst hs
        exact ⟨by simp [h1], h2, by simp [h3]⟩
  exact H.2

/-- **C158 fails: circular ranges.** A transfer of a circular range whose system call fails leaves the status alone. -/
theorem C158_circular_violated {α : Type} (s : PipeS.St α) {mem : List α} {b e : Nat} (hb : b < mem.length) (ret : Option Nat) :
    readC s none ret mem b e = .ok (s.p, -2, s.data, mem) ∧ writeC s none ret mem b e = .ok (s.p, -2, s.data) := by
  constructor
  · simp only [readC, show via s.p.reader none = none from by simp [via]]
    rw [C68_read_failed_violated hb]
    simp [note, Res.bind]
  · simp only [writeC, show via s.p.writer none = none from by simp [via]]
    rw [C68_write_failed_violated hb]
    simp [note, Res.bind]

/-- **C158 fails: circular ranges that end at the beginning of the memory.** All the bytes are read, and the status says failure. -/
theorem C158_end_violated {α : Type} (s : PipeS.St α) (hr : s.p.reader = true) {mem : List α} {b : Nat} (hb : b < mem.length)
    (ret : Option Nat) {k : Nat} :
    ∃ mem', readC s (some k) ret mem b 0 =
      .ok ({ s.p with status := some (-1) }, -1, s.data.drop (min k (min (mem.length - b) s.data.length)), mem') := by
  obtain ⟨mem', h⟩ := C68_read_end_violated (data := s.data) hb (k := k) ret
  refine ⟨mem', ?_⟩
  simp [readC, via, hr, h, note, Res.bind]

/-- **C158 fails: empty ranges.** Reading into or writing an empty range makes no system call and sets the status to failure. -/
theorem C158_empty_violated {α : Type} (s : PipeS.St α) (ret : Option Nat) (mem : List α) (b : Int) :
    PipeS.read s ret mem b b = .ok ({ s with p := { s.p with status := some (-1) } }, -1, mem) ∧
      PipeS.write s ret mem b b = .ok ({ s with p := { s.p with status := some (-1) } }, -1) := by
  simp [PipeS.read, PipeS.write, readLinear, writeLinear, note, Res.bind]

/-- **C158 fails: given descriptors.** The constructor reports success for invalid descriptors as well; the first transfer at the
invalid end fails and says so. Valid ones behave as those of `pipe`. -/
theorem C158_descriptors_violated (reader writer : Bool) : getStatus (fromFds reader writer) = .ok 0 ∧ fromFds true true = create true ∧
    ∀ {α : Type} (data : List α) (ret : Option Nat) {mem : List α} {b e : Nat}, b < e → e ≤ mem.length →
      (reader = false → PipeS.read ⟨fromFds reader writer, data, [], [], false⟩ ret mem b e =
        .ok (⟨⟨some (-1), reader, writer⟩, data, [], [], true⟩, -1, mem)) ∧
      (writer = false → PipeS.write ⟨fromFds reader writer, data, [], [], false⟩ ret mem b e =
        .ok (⟨⟨some (-1), reader, writer⟩, data, [], [], true⟩, -1)) := by
  refine ⟨rfl, rfl, fun data ret mem b e hb he => ⟨fun h => ?_, fun h => ?_⟩⟩
  · subst h
    simp only [PipeS.read]
    rw [C68_read_linear_exact he]
    simp [via, fromFds, note, hb, Res.bind]
  · subst h
    simp only [PipeS.write]
    rw [C68_write_linear_exact he]
    simp [via, fromFds, note, hb, Res.bind]

/-- **C158 fails: moved pipes.** The status of a pipe made by moving another is not initialised; a transfer that does not return
−1 leaves it so. -/
theorem C158_move_ub (p : Pipe) : getStatus (moveCtor p).1 = .ub ∧ ∀ n : Int, n ≠ -1 → getStatus (note (moveCtor p).1 n) = .ub := by
  refine ⟨rfl, fun n hn => ?_⟩
  simp [note, hn, moveCtor, getStatus]

/-- C158: a pipe that was moved from transfers nothing any more: whatever is asked of it, it returns −1 and the bytes in the pipe, which the new pipe
can read and write, stay as they are. -/
theorem C158_moved_from {α : Type} (p : Pipe) (s : PipeS.St α) (hs : s.p = (moveCtor p).2) (ret : Option Nat) (mem : List α) (b e : Int) :
    (moveCtor p).1.reader = p.reader ∧ (moveCtor p).1.writer = p.writer ∧
      (∃ s', PipeS.read s ret mem b e = .ok (s', -1, mem) ∧ s'.data = s.data) ∧ (∃ s', PipeS.write s ret mem b e = .ok (s', -1) ∧ s'.data = s.data) := by
  refine ⟨rfl, rfl, ?_, ?_⟩
  · by_cases h : e - b > 0
    · simp [PipeS.read, readLinear, via, hs, moveCtor, sysRead, Res.bind]
    · simp [PipeS.read, readLinear, show ¬ b < e by omega, Res.bind]
  · by_cases h : e - b > 0
    · simp [PipeS.write, writeLinear, via, hs, moveCtor, sysWrite, Res.bind]
    · simp [PipeS.write, writeLinear, show ¬ b < e by omega, Res.bind]

/-- **C158 fails: assignment.** After `p = move(q)` the status is success even if the pipe of `q` was never made or its transfers failed;
`q` keeps its status, and if that is success it stays so, although every transfer on it fails. -/
theorem C158_assign_violated (p q : Pipe) : getStatus (moveAssign p q).1 = .ok 0 ∧ getStatus (moveAssign p q).2 = getStatus q ∧
    (moveAssign p q).1.reader = q.reader ∧ (moveAssign p q).1.writer = q.writer ∧
    (moveAssign p q).2.reader = false ∧ (moveAssign p q).2.writer = false := by
  simp [moveAssign, getStatus]

/-! ## Concrete cases -/

/-- Two writes, a short read, a failed read. -/
example : ∃ s, Own.Reach PipeS.step proper (PipeS.start true) s ∧
    s = (⟨⟨some (-1), true, true⟩, [3], [1, 2, 3], [1, 2], true⟩ : PipeS.St Nat) :=
  Own.Reach.witness [.write (some 9) [0, 1, 2, 0] 1 3, .write (some 9) [3] 0 1, .read (some 2) [0, 0, 0] 0 3, .read none [0] 0 1] id _
    (by decide)

example : getStatus (moveAssign (create true) (create false)).1 = .ok 0 := by decide

example : readC (⟨⟨some 0, true, true⟩, [1, 2, 3], [1, 2, 3], [], false⟩ : PipeS.St Nat) none (some 3) [0, 0, 0] 2 1 =
    .ok (⟨some 0, true, true⟩, -2, [1, 2, 3], [0, 0, 0]) := by decide

example : readC (⟨⟨some 0, true, true⟩, [1, 2, 3], [1, 2, 3], [], false⟩ : PipeS.St Nat) (some 3) (some 3) [0, 0, 0] 1 0 =
    .ok (⟨some (-1), true, true⟩, -1, [3], [0, 1, 2]) := by decide

namespace Flame
open Flame.Own Flame.Split Flame.PipeS
example := C158_partial (ok := true)
  (.visit ([.write (some 9) [0, 1, 2, 0] 1 3, .read (some 2) [0, 0, 0] 0 3, .read none [0] 0 1] : List (PipeS.Op Nat)) (by decide +kernel))
example := C158_unmade (.visit ([.write (some 9) [0, 1, 2, 0] 1 3] : List (PipeS.Op Nat)) (by decide +kernel))
example := C158_circular_violated (PipeS.start true : PipeS.St Nat) (mem := [1, 2, 3]) (b := 2) (e := 1) (by decide) (some 3)
example := C158_end_violated (PipeS.start true : PipeS.St Nat) rfl (mem := [1, 2, 3]) (b := 2) (by decide) (some 3) (k := 1)
example := C158_moved_from (create true) (⟨(moveCtor (create true)).2, [1], [1], [], false⟩ : PipeS.St Nat) rfl (some 1) [0] 0 1
end Flame

end Flame
