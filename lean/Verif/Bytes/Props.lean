import Verif.Bytes.Lemmas

/-!
# Properties of byte order conversion and serialization (C22, C23, C24, C63)
-/

namespace Flame
open Bytes BytesSpec

/-- **C22.** For every supported size and every value: byte `i` of the reversed value is byte `n-1-i`, reversing twice is
the identity; for every host and wire order the converted value lies in the host's memory in the wire order, and
converting back returns the value. -/
theorem C22_byte_order (w : Width) (v : BitVec (8 * w.n)) :
    (∀ i, i < w.n → byteAt (rev w v) i = byteAt v (w.n - 1 - i)) ∧ rev w (rev w v) = v ∧
    (∀ host o, mem host w (convert host o w v) = wire o w v ∧ convert o host w (convert host o w v) = v) :=
  ⟨rev_byte w v, rev_rev w v, fun host o => ⟨mem_convert host o w v, convert_back host o w v⟩⟩

example : rev32 0x12345678#32 = 0x78563412#32 ∧ wire .be .w4 0x12345678#32 = [0x12#8, 0x34#8, 0x56#8, 0x78#8] := by decide

/-- **C22 (signed).** The signed overloads (through unsigned casts) are reversible on the signed values too. -/
theorem C22_signed (w : Width) (x : Int) (h1 : -(2 ^ (8 * w.n - 1) : Int) ≤ x) (h2 : x < 2 ^ (8 * w.n - 1)) (host o : Order) :
    (convert o host w (convert host o w (BitVec.ofInt _ x))).toInt = x := by
  rw [convert_back, BitVec.toInt_ofInt]
  have e : 2 ^ (8 * w.n) = 2 * 2 ^ (8 * w.n - 1) := by cases w <;> rfl
  rw [e]
  apply Int.bmod_eq_of_le <;> simp <;> omega

example : -(2 ^ (8 * Width.n .w2 - 1) : Int) ≤ -32768 ∧ (-32768 : Int) < 2 ^ (8 * Width.n .w2 - 1) := by decide

/-- **C24.** A specialized value of size `size` and offset `off` inside the number exposes exactly those bytes counted
from the most significant end: most significant first for big endian, reversed for little endian; its reverse iterators
give the opposite order.  If the part does not lie inside the number, the bytes are outside the value. -/
theorem C24_partial_width (host : Order) (w : Width) (v : BitVec (8 * w.n)) (size off : Nat) :
    (off + size ≤ w.n →
      (SVal.make host .be w v size off).forward host = .ok (part w v size off) ∧
      (SVal.make host .be w v size off).backward host = .ok (part w v size off).reverse ∧
      (SVal.make host .le w v size off).forward host = .ok (part w v size off).reverse ∧
      (SVal.make host .le w v size off).backward host = .ok (part w v size off)) ∧
    (w.n < off + size → ∀ o, (SVal.make host o w v size off).forward host = .ub) := by
  constructor
  · intro h
    refine ⟨forward_make h, backward_make h, forward_make h, ?_⟩
    rw [backward_make h]; simp [wirePart]
  · intro h o
    have hn : ¬ (off + size ≤ w.n) := by omega
    cases o <;> simp [SVal.forward, SVal.begin, SVal.make, hn]

example : (SVal.make .le .le .w4 0x12345678#32 2 1).forward .le = .ok [0x56#8, 0x34#8] ∧
    (SVal.make .le .be .w4 0x12345678#32 2 1).forward .le = .ok [0x34#8, 0x56#8] := by decide

/-- **C24 (writing).** Deserializing into a part changes exactly the selected bytes of the value. -/
theorem C24_partial_width_write (host ord ro wo : Order) (w : Width) (v v0 : BitVec (8 * w.n)) (size off : Nat)
    (h : off + size ≤ w.n) (data rest : List Byte) (at' : Nat) (hd : data.drop at' = wirePart ord w v size off ++ rest) :
    ∃ x, getOne host ord ⟨data, at'⟩ (.part w v v0 size off wo ro) = .ok (⟨data, at' + size⟩, size, ⟨w, x⟩) ∧
      Patched w v0 v size off x := by
  obtain ⟨r, a, x, rfl, b⟩ := getOne_ok (host := host) (ord := ord) (f := .part w v v0 size off wo ro) h hd
  exact ⟨x, a, b⟩

example : ∃ data : List Byte, data.drop 1 = wirePart .be .w4 0x12345678#32 2 1 ++ [0xEE#8] :=
  ⟨[0xAA#8, 0x34#8, 0x56#8, 0xEE#8], by decide⟩

/-- Writing a whole message. -/
theorem putAll_ok (host ord : Order) (fs : List Field) (hf : ∀ f ∈ fs, f.inside) (s : Ser)
    (hroom : s.off + total fs ≤ s.data.length) :
    putAll host ord s fs = .ok (⟨s.data.take s.off ++ layout ord fs ++ s.data.drop (s.off + total fs), s.off + total fs⟩,
      fs.map Field.len) := by
  induction fs generalizing s with
  | nil => simp [putAll, layout, total]
  | cons f fs ih =>
    have hin := hf f (by simp)
    have hw : (f.wire ord).length = f.len := by
      cases f with
      | whole w v => simp [Field.wire, Field.len]
      | part w v v0 size off wo ro =>
        have hin : off + size ≤ w.n := hin
        simp [Field.wire, Field.len, hin]
    simp only [total] at hroom
    have hone : putOne host ord s f = s.put (f.wire ord) := by
      cases f with
      | whole w v => simp only [putOne, Ser.whole, mem_convert, Field.wire]
      | part w v v0 size off wo ro => exact special_put hin
    have hstep := put_ok (s := s) (bs := f.wire ord) (by omega)
    rw [hw] at hstep
    simp only [putAll]
    rw [hone, hstep]
    simp only [Res.ok_bind]
    have hl : (s.data.take s.off ++ f.wire ord).length = s.off + f.len := by
      rw [List.length_append, List.length_take, hw]; omega
    have hlen : (s.data.take s.off ++ f.wire ord ++ s.data.drop (s.off + f.len)).length = s.data.length := by
      rw [List.length_append, hl, List.length_drop]; omega
    rw [ih (fun g hg => hf g (by simp [hg])) _ (by simp only; rw [hlen]; omega)]
    simp only [Res.ok_bind, List.map_cons, layout, total]
    congr 2
    rw [List.take_append_of_le_length (by omega), List.take_of_length_le (by omega), List.drop_append, hl,
      List.drop_of_length_le (by omega), List.drop_drop]
    simp only [List.append_assoc, List.nil_append]
    congr 1
    rw [show s.off + f.len + (s.off + f.len + total fs - (s.off + f.len)) = s.off + (f.len + total fs) by omega]
    rw [Nat.add_assoc]

/-- Reading a whole message. -/
theorem getAll_ok (host ord : Order) (fs : List Field) (hf : ∀ f ∈ fs, f.inside) (data : List Byte) (off : Nat)
    (rest : List Byte) (h : data.drop off = layout ord fs ++ rest) :
    ∃ rs, getAll host ord ⟨data, off⟩ fs = .ok (⟨data, off + total fs⟩, fs.map Field.len, rs) ∧ Received fs rs := by
  induction fs generalizing off with
  | nil => exact ⟨[], rfl, trivial⟩
  | cons f fs ih =>
    simp only [layout, List.append_assoc] at h
    obtain ⟨r, a, b⟩ := getOne_ok (host := host) (hf f (by simp)) h
    have hw : (f.wire ord).length = f.len := by
      have hin := hf f (by simp)
      cases f with
      | whole w v => simp [Field.wire, Field.len]
      | part w v v0 size off wo ro =>
        have hin : off + size ≤ w.n := hin
        simp [Field.wire, Field.len, hin]
    have h' : data.drop (off + f.len) = layout ord fs ++ rest := by
      rw [← List.drop_drop, h, ← hw, List.drop_left]
    obtain ⟨rs, a', b'⟩ := ih (fun g hg => hf g (by simp [hg])) (off + f.len) h'
    refine ⟨r :: rs, ?_, b, b'⟩
    simp only [getAll, a, Res.ok_bind, a', List.map_cons, total]
    rw [Nat.add_assoc]

/-- **C23.** For every host, every serializer order, every sequence of fields (whole numbers and parts of numbers, the
parts' own orders chosen freely on both sides) and every buffer with room: writing succeeds, returns each field's size,
advances by the total, leaves every byte outside its range unchanged and produces exactly the specified layout; reading
the same shapes succeeds, returns the same sizes and gives back every whole number and the selected bytes of every part
(the other bytes of the reader's value are kept). -/
theorem C23_round_trip (host ord : Order) (fs : List Field) (hf : ∀ f ∈ fs, f.inside) (buf : List Byte) (off : Nat)
    (hroom : off + total fs ≤ buf.length) :
    ∃ buf' rs, putAll host ord ⟨buf, off⟩ fs = .ok (⟨buf', off + total fs⟩, fs.map Field.len) ∧
      buf'.length = buf.length ∧ buf'.take off = buf.take off ∧ buf'.drop (off + total fs) = buf.drop (off + total fs) ∧
      (buf'.drop off).take (total fs) = layout ord fs ∧
      getAll host ord ⟨buf', off⟩ fs = .ok (⟨buf', off + total fs⟩, fs.map Field.len, rs) ∧ Received fs rs := by
  have hlay : (layout ord fs).length = total fs := by
    clear hroom
    induction fs with
    | nil => rfl
    | cons f fs ih =>
      have hin := hf f (by simp)
      have hw : (f.wire ord).length = f.len := by
        cases f with
        | whole w v => simp [Field.wire, Field.len]
        | part w v v0 size off wo ro =>
          have hin : off + size ≤ w.n := hin
          simp [Field.wire, Field.len, hin]
      simp only [layout, total, List.length_append, hw, ih (fun g hg => hf g (by simp [hg]))]
  have hp := putAll_ok host ord fs hf ⟨buf, off⟩ hroom
  simp only at hp
  have hl : (buf.take off).length = off := by rw [List.length_take]; omega
  have hd : (buf.take off ++ layout ord fs ++ buf.drop (off + total fs)).drop off =
      layout ord fs ++ buf.drop (off + total fs) := by
    rw [List.append_assoc, List.drop_append_of_le_length (by omega), List.drop_of_length_le (by omega), List.nil_append]
  obtain ⟨rs, g1, g2⟩ := getAll_ok host ord fs hf _ off _ hd
  refine ⟨_, rs, hp, ?_, ?_, ?_, ?_, g1, g2⟩
  · simp [hlay]; omega
  · rw [List.append_assoc, List.take_append_of_le_length (by omega), List.take_of_length_le (by omega)]
  · rw [List.drop_append, List.drop_of_length_le (by simp [hlay]; omega)]
    simp [hlay]
    congr 1; omega
  · rw [hd, List.take_append_of_le_length (by omega), List.take_of_length_le (by omega)]

/-- A mixed message: a 32-bit number, three bytes of a 64-bit number written from a little-endian value and read into a
big-endian one, a byte. -/
example : (∀ f ∈ [Field.whole .w4 0xDEADBEEF#32, .part .w8 0x1122334455667788#64 0#64 3 2 .le .be, .whole .w1 7#8], f.inside) ∧
    layout .be [Field.whole .w4 0xDEADBEEF#32, .part .w8 0x1122334455667788#64 0#64 3 2 .le .be, .whole .w1 7#8] =
      [0xDE#8, 0xAD#8, 0xBE#8, 0xEF#8, 0x33#8, 0x44#8, 0x55#8, 7#8] := by decide

/-- A part that is the whole number comes back as the number. -/
theorem C23_full_part (w : Width) (v v0 r : BitVec (8 * w.n)) (h : Patched w v0 v w.n 0 r) : r = v := by
  apply byte_ext
  intro i hi
  have := h i hi
  rwa [if_pos (by omega)] at this

example : Patched .w2 0#16 0x1234#16 (Width.n .w2) 0 0x1234#16 := by
  intro i hi
  have : i = 0 ∨ i = 1 := by simp only [Width.n] at hi; omega
  rcases this with rfl | rfl <;> decide

/-- **C23 (no room).** A number that does not fit in the data block is written outside it. -/
theorem C23_overflow_ub (host ord : Order) (w : Width) (v : BitVec (8 * w.n)) (buf : List Byte) (off : Nat)
    (h : buf.length < off + w.n) : (⟨buf, off⟩ : Ser).whole host ord w v = .ub := by
  have hn : 0 < w.n := by cases w <;> decide
  rw [Ser.whole, mem_convert, Ser.put, copyTo_ub (by simpa using h)
    (by intro e; have := congrArg List.length e; simp at this; omega)]
  rfl

example : ([] : List Byte).length < 0 + Width.n .w4 := by decide

/-- **C63_partial.** Compile-time reversal of unsigned values reverses the bytes and agrees with the run-time one.  Missing:
the signed variants (refuted below). -/
theorem C63_compile_time_partial :
    (∀ v i, i < 2 → byteAt (ct16 v) i = byteAt v (1 - i)) ∧ (∀ v i, i < 4 → byteAt (ct32 v) i = byteAt v (3 - i)) ∧
    (∀ v i, i < 8 → byteAt (ct64 v) i = byteAt v (7 - i)) ∧
    (∀ v, ct16 v = rev .w2 v) ∧ (∀ v, ct32 v = rev .w4 v) ∧ (∀ v, ct64 v = rev .w8 v) :=
  ⟨fun v i h => rev_byte .w2 v i h, fun v i h => rev_byte .w4 v i h, fun v i h => rev_byte .w8 v i h,
    fun _ => rfl, fun _ => rfl, fun _ => rfl⟩

example : ct64 0x0102030405060708#64 = 0x0807060504030201#64 := by decide

/-- **C63, violated.** The signed compile-time variants yield no value for any argument: those for a non-negative `short_t` instantiate
themselves for ever, all others are rejected (also for `int_t` and `long_t`, whose parameter is a `short_t` too). -/
theorem C63_compile_time_signed_violated {bits : Nat} (hb : bits = 16 ∨ bits = 32 ∨ bits = 64) (v : Int) :
    if 0 ≤ v ∧ v < 2 ^ 15 then ∀ f, ctSigned bits f v = .loop else ∀ f, ctSigned bits (f + 2) v = .ub := by
  by_cases h : 0 ≤ v ∧ v < 2 ^ 15
  · rw [if_pos h]
    intro f
    induction f with
    | zero => rfl
    | succ f ih =>
      rw [ctSigned, if_pos (by omega)]
      rw [show v % 2 ^ bits = v by rcases hb with rfl | rfl | rfl <;> omega]
      exact ih
  · rw [if_neg h]
    intro f
    rw [ctSigned]
    by_cases h2 : -2 ^ 15 ≤ v ∧ v < 2 ^ 15
    · rw [if_pos h2, ctSigned, if_neg (by rcases hb with rfl | rfl | rfl <;> omega)]
    · rw [if_neg h2]

example : ctSigned 32 9 0x1234 = .loop ∧ ctSigned 32 9 (-1) = .ub ∧ ctSigned 64 9 0x12345 = .ub := by decide

end Flame
