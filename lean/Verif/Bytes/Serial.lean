import Verif.Bytes.Spec

/-!
# Model of serialization (include/FlameIDE/Templates/Serialization)

`mem`/`ofMem` are the object representation of an integer on a host of the given byte order (part of the language, not of
the library).  The data block is a list of bytes; a write or read outside it is `ub` (the code has no bounds check).
Simplification: the pointer one before the first byte of a value (`rend`, SpecializedValue.hpp 402-411, 467-477) is only
compared, never dereferenced, and is taken to be harmless.
-/

namespace Flame.Bytes
open BytesSpec

/-- The bytes of an integer in memory. -/
def mem (host : Order) (w : Width) (v : BitVec (8 * w.n)) : List Byte :=
  match host with
  | .le => (List.range w.n).map fun i => v.extractLsb' (8 * i) 8
  | .be => ((List.range w.n).map fun i => v.extractLsb' (8 * i) 8).reverse

/-- Value of little-endian bytes. -/
def leNat : List Byte → Nat
  | [] => 0
  | b :: bs => b.toNat + 256 * leNat bs

/-- The integer that some bytes in memory represent. -/
def ofMem (host : Order) (w : Width) (bs : List Byte) : BitVec (8 * w.n) :=
  match host with
  | .le => BitVec.ofNat _ (leNat bs)
  | .be => BitVec.ofNat _ (leNat bs.reverse)

/-- `SpecializedValue<ORDER, T>` with the members of ValueInfo.hpp 74-76. -/
structure SVal where
  ord : Order
  w : Width
  raw : BitVec (8 * w.n)
  size : Nat
  off : Nat

/-- `makeSpecializedValue<ORDER>` (SpecializedValue.hpp 495-505). -/
def SVal.make (host ord : Order) (w : Width) (v : BitVec (8 * w.n)) (size off : Nat) : SVal :=
  ⟨ord, w, convert host ord w v, size, off⟩

/-- `makeSpecializedValueEmpty` (SpecializedValue.hpp 507-515). -/
def SVal.makeEmpty (ord : Order) (w : Width) (size off : Nat) : SVal := ⟨ord, w, 0, size, off⟩

/-- `begin()` as an index into the bytes of the value: big endian 358-370, little endian 421-435; outside the value: `ub`. -/
def SVal.begin (s : SVal) : Res Nat :=
  match s.ord with
  | .be => if s.off + s.size ≤ s.w.n then .ok s.off else .ub
  | .le => if s.off + s.size ≤ s.w.n then .ok (s.w.n - s.size - s.off) else .ub

/-- Reading `begin()..end()` (SpecializedValue.hpp 386-398, 451-463). -/
def SVal.forward (host : Order) (s : SVal) : Res (List Byte) := do
  let b ← s.begin
  .ok (((mem host s.w s.raw).drop b).take s.size)

/-- Reading `rbegin()..rend()` (372-384, 400-411, 437-449, 465-477): from `end() - 1` down to `begin()`. -/
def SVal.backward (host : Order) (s : SVal) : Res (List Byte) := do
  let b ← s.begin
  .ok (((mem host s.w s.raw).drop b).take s.size).reverse

/-- SimpleAlgorithms.hpp 66-85: `copy`, element by element, into memory at `off`. -/
def copyTo : List Byte → Nat → List Byte → Res (List Byte)
  | buf, _, [] => .ok buf
  | buf, off, b :: bs => if off < buf.length then copyTo (buf.set off b) (off + 1) bs else .ub

/-- Reading `[off, off + n)` of the data block. -/
def readN : List Byte → Nat → Nat → Res (List Byte)
  | _, _, 0 => .ok []
  | buf, off, n + 1 =>
    match buf[off]? with
    | none => .ub
    | some b => do
      let bs ← readN buf (off + 1) n
      .ok (b :: bs)

/-- Serializer.hpp 75-76. -/
structure Ser where
  data : List Byte
  off : Nat

/-- Common part of Serializer.hpp 100-102, 110-112, 119-121. -/
def Ser.put (s : Ser) (bs : List Byte) : Res (Ser × Nat) := do
  let d ← copyTo s.data s.off bs
  .ok (⟨d, s.off + bs.length⟩, bs.length)

/-- Serializer.hpp 94-103 with `toOrder` 124-129. -/
def Ser.whole (host ord : Order) (s : Ser) (w : Width) (v : BitVec (8 * w.n)) : Res (Ser × Nat) :=
  s.put (mem host w (convert host ord w v))

/-- Serializer.hpp 105-113 (other order) and 115-122 (same order). -/
def Ser.special (host ord : Order) (s : Ser) (x : SVal) : Res (Ser × Nat) :=
  if x.ord = ord then do
    let bs ← x.forward host
    s.put bs
  else do
    let bs ← x.backward host
    s.put bs

/-- Deserializer.hpp 80-81. -/
structure De where
  data : List Byte
  off : Nat

/-- Deserializer.hpp 99-110 with `toOrder` 138-143. -/
def De.whole (host ord : Order) (s : De) (w : Width) : Res (De × Nat × BitVec (8 * w.n)) := do
  let bs ← readN s.data s.off w.n
  .ok (⟨s.data, s.off + w.n⟩, w.n, convert ord host w (ofMem host w bs))

/-- Deserializer.hpp 112-123 (other order: written backwards from `rbegin()`) and 125-136 (same order). -/
def De.special (host ord : Order) (s : De) (x : SVal) : Res (De × Nat × SVal) := do
  let b ← x.begin
  let bs ← readN s.data s.off x.size
  let m ← copyTo (mem host x.w x.raw) b (if x.ord = ord then bs else bs.reverse)
  .ok (⟨s.data, s.off + x.size⟩, x.size, { x with raw := ofMem host x.w m })

/-! ### Whole messages -/

/-- Write one field. -/
def putOne (host ord : Order) (s : Ser) : Field → Res (Ser × Nat)
  | .whole w v => s.whole host ord w v
  | .part w v _ size off wo _ => s.special host ord (SVal.make host wo w v size off)

/-- Write a sequence of fields, collecting the returned sizes. -/
def putAll (host ord : Order) : Ser → List Field → Res (Ser × List Nat)
  | s, [] => .ok (s, [])
  | s, f :: fs => do
    let r ← putOne host ord s f
    let t ← putAll host ord r.1 fs
    .ok (t.1, r.2 :: t.2)

/-- Read one field; for a part the logical value is the stored one converted to host order. -/
def getOne (host ord : Order) (s : De) : Field → Res (De × Nat × Value)
  | .whole w _ => do
    let r ← s.whole host ord w
    .ok (r.1, r.2.1, ⟨w, r.2.2⟩)
  | .part w _ v0 size off _ ro => do
    let r ← s.special host ord (SVal.make host ro w v0 size off)
    .ok (r.1, r.2.1, ⟨r.2.2.w, convert r.2.2.ord host r.2.2.w r.2.2.raw⟩)

/-- Read a sequence of fields of the given shapes. -/
def getAll (host ord : Order) : De → List Field → Res (De × List Nat × List Value)
  | s, [] => .ok (s, [], [])
  | s, f :: fs => do
    let r ← getOne host ord s f
    let t ← getAll host ord r.1 fs
    .ok (t.1, r.2.1 :: t.2.1, r.2.2 :: t.2.2)

end Flame.Bytes
