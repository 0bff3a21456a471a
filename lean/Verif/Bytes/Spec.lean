import Verif.Bytes.Model

/-!
# Specification of byte order and serialized layouts

Bytes of a number counted from the least significant one; wire layouts as lists of those bytes.  Nothing here mentions
masks, shifts, hosts or iterators.
-/

namespace Flame.BytesSpec

abbrev Byte := BitVec 8

/-- Byte `i` of a number, `0` being the least significant. -/
def byteAt {w : Nat} (v : BitVec w) (i : Nat) : Byte := v.extractLsb' (8 * i) 8

/-- The bytes of a number, most significant first. -/
def msbFirst (w : Width) (v : BitVec (8 * w.n)) : List Byte := (List.range w.n).map fun i => byteAt v (w.n - 1 - i)

/-- Layout of a number on the wire. -/
def wire (o : Order) (w : Width) (v : BitVec (8 * w.n)) : List Byte :=
  match o with
  | .be => msbFirst w v
  | .le => (msbFirst w v).reverse

/-- `size` bytes of a number, skipping `off` from its most significant end. -/
def part (w : Width) (v : BitVec (8 * w.n)) (size off : Nat) : List Byte := ((msbFirst w v).drop off).take size

/-- The same, laid out on the wire. -/
def wirePart (o : Order) (w : Width) (v : BitVec (8 * w.n)) (size off : Nat) : List Byte :=
  match o with
  | .be => part w v size off
  | .le => (part w v size off).reverse

/-- `r` has the selected bytes of `v` and the other bytes of `v0`. -/
def Patched (w : Width) (v0 v : BitVec (8 * w.n)) (size off : Nat) (r : BitVec (8 * w.n)) : Prop :=
  ∀ i, i < w.n → byteAt r i = if w.n ≤ i + off + size ∧ i + off < w.n then byteAt v i else byteAt v0 i

/-- A number of any of the supported sizes. -/
structure Value where
  w : Width
  v : BitVec (8 * w.n)
  deriving DecidableEq, Repr

/-- What is written and read at one place of a message: a whole number, or part of one.  `v0` is the value that the
reader's object has beforehand, `wo`/`ro` the orders of the specialized values used for writing and reading. -/
inductive Field where
  | whole (w : Width) (v : BitVec (8 * w.n))
  | part (w : Width) (v v0 : BitVec (8 * w.n)) (size off : Nat) (wo ro : Order)

/-- The selected bytes lie inside the number. -/
def Field.inside : Field → Prop
  | .whole _ _ => True
  | .part w _ _ size off _ _ => off + size ≤ w.n

/-- Number of bytes on the wire. -/
def Field.len : Field → Nat
  | .whole w _ => w.n
  | .part _ _ _ size _ _ _ => size

/-- Bytes on the wire of a message in order `o`. -/
def Field.wire (o : Order) : Field → List Byte
  | .whole w v => BytesSpec.wire o w v
  | .part w v _ size off _ _ => wirePart o w v size off

/-- What the reader must get. -/
def Field.received : Field → Value → Prop
  | .whole w v, r => r = ⟨w, v⟩
  | .part w v v0 size off _ _, r => ∃ x, r = ⟨w, x⟩ ∧ Patched w v0 v size off x

/-- Length of a message. -/
def total : List Field → Nat
  | [] => 0
  | f :: fs => f.len + total fs

/-- Bytes of a message. -/
def layout (o : Order) : List Field → List Byte
  | [] => []
  | f :: fs => f.wire o ++ layout o fs

/-- Field by field. -/
def Received : List Field → List Value → Prop
  | [], [] => True
  | f :: fs, r :: rs => f.received r ∧ Received fs rs
  | _, _ => False

instance (f : Field) : Decidable f.inside := by cases f <;> unfold Field.inside <;> infer_instance

end Flame.BytesSpec
