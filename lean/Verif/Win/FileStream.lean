import Verif.Stream.FileOwn
import Verif.Stream.Split

/-!
# File streams on Windows

src/Streams/Windows/FileStreamReader.cpp 11-100, src/Streams/Windows/FileStreamWriter.cpp 11-106.

The ownership functions of the two classes are the same.  They differ from the POSIX ones (`Verif/Stream/FileOwn.lean`) in the
default constructors (FileStreamReader.cpp 11, FileStreamWriter.cpp 11), which do not write `own`.
Handles are numbered by order of opening; `os::INVALID_DESCRIPTOR` is `none`; `::CloseHandle` of an open handle succeeds.
-/

namespace Flame.WinFile
open Flame.Own
open Flame.Own.FileS (Op hand)

/-- FileStreamReader.hpp 56-57; `own = none` is a `bool` that was never written: reading it is undefined. -/
structure Var where
  fd : Option Nat
  own : Option Bool
  deriving DecidableEq, Repr

structure St where
  vars : Nat → Option Var
  caller : Nat → Bool
  next : Nat
  log : List Ev

def start : St := ⟨fun _ => none, fun _ => false, 0, []⟩

/-- FileStreamReader.cpp 28-31, 87-90: `if (own && fd != INVALID_DESCRIPTOR) ::CloseHandle(fd)`. -/
def release (v : Var) (log : List Ev) : Res (List Ev) := match v.own with
  | none => .ub
  | some false => .ok log
  | some true => match v.fd with
    | none => .ok log
    | some r => .ok (if Live r log then .closed r :: log else .closedForeign :: log)

def step (s : St) : Op → Res St
  | .openFile => .ok { s with caller := upd s.caller s.next true, next := s.next + 1, log := .made s.next :: s.log }
  | .closeFile r => match release ⟨some r, some true⟩ s.log with
    | .ok log => .ok { s with caller := upd s.caller r false, log := log }
    | .ub => .ub
    | .loop => .loop
  -- 11-12: `own` is left as it is in memory
  | .default i => .ok { s with vars := upd s.vars i (some ⟨none, none⟩) }
  -- 21-24
  | .make i r own => .ok { s with vars := upd s.vars i (some ⟨some r, some own⟩), caller := hand s.caller (some r) own }
  -- 14-19: copies the flag
  | .moveCtor i j => match s.vars j with
    | some ⟨fd, some own⟩ => .ok { s with vars := upd (upd s.vars i (some ⟨fd, some own⟩)) j (some ⟨none, some false⟩) }
    | _ => .ub
  -- 34-43
  | .moveAssign i j => match s.vars i, s.vars j with
    | some _, some ⟨fd, some own⟩ => .ok { s with vars := upd (upd s.vars i (some ⟨fd, some own⟩)) j (some ⟨none, some false⟩) }
    | _, _ => .ub
  -- 84-93: reads the flag
  | .setFd i fd own => match s.vars i with
    | some v => match release v s.log with
      | .ok log => .ok { s with vars := upd s.vars i (some ⟨fd, some own⟩), caller := hand s.caller fd own, log := log }
      | .ub => .ub
      | .loop => .loop
    | none => .ub
  -- 95-100: overwrites the flag
  | .getFd i keep => match s.vars i with
    | some v => .ok { s with vars := upd s.vars i (some { v with own := some keep }),
                             caller := match v.own, keep, v.fd with
                               | some true, false, some r => upd s.caller r true
                               | _, _, _ => s.caller }
    | none => .ub
  | .use i => match s.vars i with
    | some v => match v.fd with
      | some r => .ok { s with log := .used r :: s.log }
      | none => .ok s
    | none => .ub
  -- 26-32
  | .drop i => match s.vars i with
    | some v => match release v s.log with
      | .ok log => .ok { s with vars := upd s.vars i none, log := log }
      | .ub => .ub
      | .loop => .loop
    | none => .ub

/-- The handle a stream will close. -/
def held : Option Var → Option Nat
  | some ⟨some r, some true⟩ => some r
  | _ => none

/-- Who is responsible: object `i` (key `2 i`), the program for handle `r` (key `2 r + 1`). -/
def owner (s : St) (k : Nat) : Option Nat :=
  if k % 2 = 0 then held (s.vars (k / 2))
  else if s.caller (k / 2) then some (k / 2) else none

/-- The flag of object `i` has been written. -/
def Written (s : St) (i : Nat) : Prop := ∀ v, s.vars i = some v → v.own ≠ none

instance (s : St) (i : Nat) : Decidable (Written s i) :=
  match h : s.vars i with
  | none => .isTrue (by intro v hv; rw [h] at hv; cases hv)
  | some v => if h' : v.own = none then .isFalse (fun hw => hw v h h') else .isTrue (by intro w hw; rw [h] at hw; cases hw; exact h')

/-- Variables are declared before use and only once; the program closes and gives away only handles it is responsible for;
an object that owns a handle is not assigned to, none is assigned to itself, one that does not own its handle is not told to
continue owning it; and a default constructed object is assigned to before anything else is done with it. -/
def careful (s : St) : Op → Prop
  | .openFile => True
  | .closeFile r => s.caller r = true
  | .default i => s.vars i = none
  | .make i r own => s.vars i = none ∧ (own = true → s.caller r = true)
  | .moveCtor i j => s.vars i = none ∧ s.vars j ≠ none ∧ Written s j
  | .moveAssign i j => s.vars i ≠ none ∧ s.vars j ≠ none ∧ Written s j ∧ held (s.vars i) = none ∧ i ≠ j
  | .setFd i (some r) own => s.vars i ≠ none ∧ Written s i ∧ (own = true → s.caller r = true)
  | .setFd i none _ => s.vars i ≠ none ∧ Written s i
  | .getFd i keep => s.vars i ≠ none ∧ (keep = true → (s.vars i).bind (fun v => v.own) = some true)
  | .drop i => s.vars i ≠ none ∧ Written s i
  | .use i => (s.vars i).bind (fun v => v.own) = some true

instance (s : St) (o : Op) : Decidable (careful s o) := by
  cases o with
  | setFd i fd own => cases fd <;> unfold careful <;> infer_instance
  | _ => unfold careful; infer_instance

/-! ## Transfers -/

variable {α : Type}

/-- FileStreamReader.cpp 45-65: the size passes through a `DWORD` (55); `ret` is what `::ReadFile` does. -/
def readLinear (ret : Option Nat) (data mem : List α) (b e : Int) : Res (Int × List α × List α) :=
  if e - b > 0 then Split.sysRead ret data mem b ((e - b).toNat % 2 ^ 32) else .ok (-1, data, mem)

/-- FileStreamReader.cpp 67-82. -/
def readCircular (ret₀ ret₁ : Option Nat) (data mem : List α) (b e : Int) : Res (Int × List α × List α) := do
  let rs ← Split.split (mem.length + 1) mem.length b e
  let r₀ ← readLinear ret₀ data mem rs.1.1 rs.1.2
  if r₀.1 ≠ -1 then do
    let r₁ ← readLinear ret₁ r₀.2.1 r₀.2.2 rs.2.1 rs.2.2
    if r₁.1 < 0 then .ok (r₁.1, r₁.2)
    else .ok (r₀.1 + r₁.1, r₁.2)
  else .ok (r₀.1 + -1, r₀.2)

/-- FileStreamWriter.cpp 34-54. -/
def writeLinear (ret : Option Nat) (file mem : List α) (b e : Int) : Res (Int × List α) :=
  if e - b > 0 then Split.sysWrite ret file mem b ((e - b).toNat % 2 ^ 32) else .ok (-1, file)

/-- FileStreamWriter.cpp 56-72. -/
def writeCircular (ret₀ ret₁ : Option Nat) (file mem : List α) (b e : Int) : Res (Int × List α) := do
  let rs ← Split.split (mem.length + 1) mem.length b e
  let r₀ ← writeLinear ret₀ file mem rs.1.1 rs.1.2
  if r₀.1 ≠ -1 ∧ rs.2.2 - rs.2.1 > 0 then do
    let r₁ ← writeLinear ret₁ r₀.2 mem rs.2.1 rs.2.2
    if r₁.1 < 0 then .ok (r₁.1, r₁.2)
    else .ok (r₀.1 + r₁.1, r₁.2)
  else .ok (r₀.1 + -1, r₀.2)

end Flame.WinFile
