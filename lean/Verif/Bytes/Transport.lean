import Verif.Bytes.Serial

/-!
# Messages serialised by one program and deserialised by another

How programs use `Serializer` and `Deserializer` (include/FlameIDE/Templates/Serialization/Serializer.hpp 94-122, Deserializer.hpp 99-136) around a
transport: the sender serialises message after message into one buffer and hands over as many bytes of it as the calls returned together; the receiver
deserialises with the same sequence of types out of the memory it received into.

Simplification: both programs use the same wire order unless said otherwise; the buffer of the sender is reused, so it holds what the last message left.
-/

namespace Flame.Transport
open Bytes BytesSpec

/-- Serializer.hpp 94-122: one message at the beginning of the buffer; the buffer afterwards and the bytes to hand over. -/
def encode (host ord : Order) (buf : List Byte) (m : List Field) : Res (List Byte × List Byte) := do
  let r ← putAll host ord ⟨buf, 0⟩ m
  .ok (r.1.data, r.1.data.take r.2.sum)

/-- Message after message through the same buffer. -/
def encodeAll (host ord : Order) : List Byte → List (List Field) → Res (List (List Byte))
  | _, [] => .ok []
  | buf, m :: ms => do
    let r ← encode host ord buf m
    let rs ← encodeAll host ord r.1 ms
    .ok (r.2 :: rs)

/-- Deserializer.hpp 99-136: the values of a message that begins `at'` bytes into the data. -/
def decode (host ord : Order) (data : List Byte) (at' : Nat) (m : List Field) : Res (List Value) := do
  let r ← getAll host ord ⟨data, at'⟩ m
  .ok r.2.2

end Flame.Transport
