import Verif.Os.Errno

/-!
# C152: a failing call is reported with its own error code

The specification knows only which native calls were made and failed, in order.
-/

namespace Flame.Errno

/-- The codes of the failures that happen in one run of the handler, in order. -/
def codes (r : Run) : List Nat :=
  match r.type with
  | .error c => [c]
  | .ok .other => []
  | .ok t =>
    (match r.server with
      | .error c => [c]
      | .ok s => if s = true ∧ t = .stream then
          (match r.listener with
            | .error c => [c]
            | .ok l => if l = true then r.accept.toList else [])
        else []) ++ r.note.toList

theorem after_toList (o : Out) (e : Nat) : after o e = (o.toList.getLast?).getD e := by cases o <;> rfl

theorem getLast_append (a b : List Nat) (e : Nat) : ((a ++ b).getLast?).getD e = (b.getLast?).getD ((a.getLast?).getD e) := by
  rw [List.getLast?_append]
  cases b.getLast? <;> rfl

theorem handler_codes (r : Run) (e : Nat) : handler r e = ((codes r).getLast?).getD e := by
  obtain ⟨type, server, listener, accept, note⟩ := r
  cases type with
  | error c => rfl
  | ok t =>
    cases t with
    | other => rfl
    | dgram =>
      simp only [handler, codes, getLast_append, handleUdp, after_toList note]
      cases server with
      | error c => rfl
      | ok s => simp [failed, after]
    | stream =>
      simp only [handler, codes, getLast_append, handleTcp, after_toList note]
      congr 1
      cases server with
      | error c => rfl
      | ok s =>
        cases s with
        | false => rfl
        | true =>
          cases listener with
          | error c => rfl
          | ok l =>
            cases l with
            | false => rfl
            | true => cases accept <;> rfl

theorem handlers_codes (rs : List Run) (e : Nat) : handlers rs e = ((rs.flatMap codes).getLast?).getD e := by
  induction rs generalizing e with
  | nil => rfl
  | cons r rs ih => simp only [handlers, ih, List.flatMap_cons, getLast_append, handler_codes]

end Flame.Errno

namespace Flame
open Errno

/-- **C152, exactly.** A success is reported as it is.  A failure is reported with the code of the last call that failed in the thread before
`errno` was read: the call itself or one made by the handler. -/
theorem C152_exact (native : Except Nat Nat) (rs : List Run) :
    (∀ n, native = .ok n → report native rs = (n : Int)) ∧
    (∀ c, native = .error c → report native rs = -((((c :: rs.flatMap codes).getLast?).getD 0 : Nat) : Int)) := by
  constructor
  · intro n h; subst h; rfl
  · intro c h
    subst h
    simp only [report, handlers_codes]
    cases hl : rs.flatMap codes with
    | nil => rfl
    | cons a l => rw [List.getLast?_cons_cons, List.getLast?_cons]; rfl

/-- **C152, what holds.** If the handler's calls do not fail, the code is right. -/
theorem C152_undisturbed_partial (c : Nat) (rs : List Run) (h : ∀ r ∈ rs, codes r = []) : report (.error c) rs = -(c : Int) := by
  have : rs.flatMap codes = [] := by
    rw [List.flatMap_eq_nil_iff]; exact h
  simp only [report, handlers_codes, this]
  rfl

/-- **C152 fails.** Whatever the call failed with: a signal for a descriptor that is no socket (such as descriptor 0, C148) makes it report
ENOTSOCK, and one for a listening socket whose connection another thread has taken makes it report EAGAIN. -/
theorem C152_violated (c : Nat) (before : List Run) (r : Run) :
    (∀ e, r.type = .error e → report (.error c) (before ++ [r]) = -(e : Int)) ∧
    (∀ e, r.type = .ok .stream → r.server = .ok true → r.listener = .ok true → r.accept = some e → r.note = none →
      report (.error c) (before ++ [r]) = -(e : Int)) := by
  constructor
  · intro e h
    simp [report, handlers_codes, codes, h]
  · intro e h1 h2 h3 h4 h5
    simp [report, handlers_codes, codes, h1, h2, h3, h4, h5]

example : report (.error 104) [⟨.error 88, .ok false, .ok false, none, none⟩] = -88 := by decide
example : report (.error 104) [⟨.ok .stream, .ok true, .ok true, some 11, none⟩] = -11 := by decide
example : codes ⟨.ok .dgram, .ok true, .ok false, none, none⟩ = [] := by decide

namespace Flame
open Errno
example := C152_undisturbed_partial 104 [⟨.ok .dgram, .ok true, .ok false, none, none⟩, ⟨.ok .other, .error 9, .ok false, none, none⟩]
  (by decide)
end Flame

end Flame
