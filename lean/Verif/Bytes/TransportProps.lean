import Verif.Bytes.Transport
import Verif.Bytes.Props
import Verif.Net.FlowProps
import Verif.Stream.RamProps
import Verif.Stream.SharedProps

/-!
# C192: a message serialised on one machine is deserialised on another to the same values

The specification needs `BytesSpec.Received` (what the reader of a field must get) and where each message begins in the sequence of all messages.
-/

namespace Flame.Transport
open Bytes BytesSpec

/-- Specification: the place of message `i` when the messages follow each other. -/
def place (ms : List (List Field)) (i : Nat) : Nat := ((ms.take i).map total).sum

/-- Specification: message `i`, read at its place out of `data`, is what was sent. -/
def Delivered (host ord : Order) (data : List Byte) (ms : List (List Field)) (i : Nat) (m : List Field) : Prop :=
  ∃ rs, decode host ord data (place ms i) m = .ok rs ∧ Received m rs

/-- Specification: the parts of numbers that a message sends lie inside the numbers. -/
def Sound (ms : List (List Field)) : Prop := ∀ m ∈ ms, ∀ f ∈ m, f.inside

theorem wire_len {f : Field} (hin : f.inside) (o : Order) : (f.wire o).length = f.len := by
  cases f with
  | whole w v => simp [Field.wire, Field.len]
  | part w v v0 size off wo ro =>
    have hin : off + size ≤ w.n := hin
    simp [Field.wire, Field.len, hin]

theorem layout_len (o : Order) {m : List Field} (h : ∀ f ∈ m, f.inside) : (layout o m).length = total m := by
  induction m with
  | nil => rfl
  | cons f m ih =>
    simp only [layout, total, List.length_append, wire_len (h f (by simp)), ih (fun g hg => h g (by simp [hg]))]

theorem lens_sum (m : List Field) : (m.map Field.len).sum = total m := by
  induction m with
  | nil => rfl
  | cons f m ih => simp only [List.map_cons, List.sum_cons, total, ih]

theorem encode_ok {host ord : Order} {buf : List Byte} {m : List Field} (h : ∀ f ∈ m, f.inside) (hr : total m ≤ buf.length) :
    encode host ord buf m = .ok (layout ord m ++ buf.drop (total m), layout ord m) := by
  have := putAll_ok host ord m h ⟨buf, 0⟩ (by simpa using hr)
  simp only [encode, this, Res.ok_bind, lens_sum]
  simp [layout_len ord h]

/-- **C192**: the sender hands over exactly the layouts of its messages, on every host and whatever the buffer held before. -/
theorem C192_encoded (host ord : Order) {buf : List Byte} {ms : List (List Field)} (h : Sound ms) (hr : ∀ m ∈ ms, total m ≤ buf.length) :
    encodeAll host ord buf ms = .ok (ms.map (layout ord)) := by
  induction ms generalizing buf with
  | nil => rfl
  | cons m ms ih =>
    have hm := h m (by simp)
    have hb := hr m (by simp)
    simp only [encodeAll, encode_ok hm hb, Res.ok_bind, List.map_cons]
    rw [ih (fun x hx => h x (by simp [hx]))]
    · rfl
    · intro x hx
      have := hr x (by simp [hx])
      simp only [List.length_append, List.length_drop, layout_len ord hm]
      omega

theorem layouts_drop (ord : Order) {ms : List (List Field)} (h : Sound ms) {i : Nat} {m : List Field} (hi : ms[i]? = some m) :
    ∃ rest, ((ms.map (layout ord)).flatten).drop (place ms i) = layout ord m ++ rest := by
  induction ms generalizing i with
  | nil => simp at hi
  | cons x ms ih =>
    cases i with
    | zero =>
      simp only [List.getElem?_cons_zero, Option.some.injEq] at hi
      subst hi
      exact ⟨(ms.map (layout ord)).flatten, by simp [place]⟩
    | succ i =>
      simp only [List.getElem?_cons_succ] at hi
      obtain ⟨rest, hr⟩ := ih (fun y hy => h y (by simp [hy])) hi
      refine ⟨rest, ?_⟩
      simp only [place, List.take_succ_cons, List.map_cons, List.sum_cons, List.flatten_cons]
      rw [← List.drop_drop, ← layout_len ord (h x (by simp)), List.drop_left]
      exact hr

/-- Reading one field out of enough data always yields something. -/
theorem getOne_any (host ord : Order) {f : Field} (hf : f.inside) {data : List Byte} {off : Nat} (h : f.len = 0 ∨ off + f.len ≤ data.length) :
    ∃ r, getOne host ord ⟨data, off⟩ f = .ok (⟨data, off + f.len⟩, f.len, r) := by
  have hrd : ∃ bs, readN data off f.len = .ok bs ∧ bs.length = f.len := by
    rcases h with h | h
    · rw [h]; exact ⟨[], rfl, rfl⟩
    · exact ⟨_, readN_ok h, by simp; omega⟩
  obtain ⟨bs, h1, h2⟩ := hrd
  cases f with
  | whole w v =>
    simp only [Field.len] at h1
    simp only [getOne, De.whole, h1, Res.ok_bind, Field.len]
    exact ⟨_, rfl⟩
  | part w v v0 size o wo ro =>
    have hf : o + size ≤ w.n := hf
    simp only [Field.len] at h1 h2
    simp only [getOne, De.special, Field.len]
    rw [begin_ok (s := SVal.make host ro w v0 size o) hf]
    simp only [Res.ok_bind]
    have hs : (SVal.make host ro w v0 size o).size = size := rfl
    rw [hs, h1]
    simp only [Res.ok_bind]
    rw [copyTo_ok]
    · exact ⟨_, rfl⟩
    · have hw : (SVal.make host ro w v0 size o).w = w := rfl
      have ho : (SVal.make host ro w v0 size o).off = o := rfl
      have hlen : (if (SVal.make host ro w v0 size o).ord = ord then bs else bs.reverse).length = size := by split <;> simp [h2]
      rw [hlen, mem_length]
      have : (SVal.make host ro w v0 size o).w.n = w.n := rfl
      split <;> simp only [hw, ho] <;> omega

theorem readN_ub {buf : List Byte} {off n : Nat} (h : buf.length < off + n) (hn : n ≠ 0) : readN buf off n = .ub := by
  induction n generalizing off with
  | zero => exact absurd rfl hn
  | succ n ih =>
    simp only [readN]
    cases hb : buf[off]? with
    | none => rfl
    | some b =>
      have hlt : off < buf.length := by
        rcases Nat.lt_or_ge off buf.length with h | h
        · exact h
        · rw [List.getElem?_eq_none h] at hb; simp at hb
      simp only
      rw [ih (by omega) (by omega)]
      rfl

theorem getAll_ub (host ord : Order) {m : List Field} (hm : ∀ f ∈ m, f.inside) {data : List Byte} {off : Nat}
    (h : data.length < off + total m) (h0 : total m ≠ 0) : getAll host ord ⟨data, off⟩ m = .ub := by
  induction m generalizing off with
  | nil => exact absurd rfl h0
  | cons f m ih =>
    simp only [total] at h h0
    have hf := hm f (by simp)
    by_cases hok : f.len = 0 ∨ off + f.len ≤ data.length
    · obtain ⟨r, hr⟩ := getOne_any host ord hf hok
      simp only [getAll, hr, Res.ok_bind]
      rw [ih (fun g hg => hm g (by simp [hg])) (by omega) (by omega)]
      rfl
    · have hub : readN data off f.len = .ub := readN_ub (by omega) (by omega)
      cases f with
      | whole w v =>
        simp only [Field.len] at hub
        simp only [getAll, getOne, De.whole, hub]
        rfl
      | part w v v0 size o wo ro =>
        have hin : o + size ≤ w.n := hf
        simp only [Field.len] at hub
        simp only [getAll, getOne, De.special]
        rw [begin_ok (s := SVal.make host ro w v0 size o) hin]
        have hs : (SVal.make host ro w v0 size o).size = size := rfl
        simp only [Res.ok_bind, hs, hub]
        rfl

/-- **C192**: whatever carries the bytes, as long as it delivers a beginning of what was handed over: every message that has arrived entirely is
deserialised to the values sent, on a host of either byte order and whatever follows in the receiver's memory. -/
theorem C192_delivered (host host' ord : Order) {buf : List Byte} {ms : List (List Field)} (h : Sound ms) {bss : List (List Byte)}
    (he : encodeAll host ord buf ms = .ok bss) (hr : ∀ m ∈ ms, total m ≤ buf.length) {data : List Byte} (hd : data <+: bss.flatten) (behind : List Byte)
    {i : Nat} {m : List Field} (hi : ms[i]? = some m) (hc : place ms i + total m ≤ data.length) :
    Delivered host' ord (data ++ behind) ms i m := by
  rw [C192_encoded host ord h hr, Res.ok.injEq] at he
  subst he
  obtain ⟨t, ht⟩ := hd
  obtain ⟨rest, hrest⟩ := layouts_drop ord h hi
  have hm : ∀ f ∈ m, f.inside := h m (List.mem_of_getElem? hi)
  have hl := layout_len ord hm
  rw [← ht, List.drop_append_of_le_length (by omega)] at hrest
  have hx : (data.drop (place ms i)).take (total m) = layout ord m := by
    have h1 := congrArg (List.take (total m)) hrest
    rw [List.take_append_of_le_length (by rw [List.length_drop]; omega), List.take_append_of_le_length (by omega),
      List.take_of_length_le (l := layout ord m) (by omega)] at h1
    exact h1
  have hy : (data ++ behind).drop (place ms i) = layout ord m ++ ((data.drop (place ms i)).drop (total m) ++ behind) := by
    rw [List.drop_append_of_le_length (by omega), ← List.append_assoc, ← hx, List.take_append_drop]
  obtain ⟨rs, ha, hb⟩ := getAll_ok host' ord m hm _ _ _ hy
  exact ⟨rs, by simp only [decode, ha, Res.ok_bind], hb⟩

/-- **C192 violated** for a receiver that deserialises what it has without counting: before the message has arrived entirely, and the memory holds no
more than what has arrived, the deserialiser (which checks no bounds) reads beyond it. -/
theorem C192_incomplete_ub (host' ord : Order) {ms : List (List Field)} (h : Sound ms) {data : List Byte} {i : Nat} {m : List Field}
    (hi : ms[i]? = some m) (hc : data.length < place ms i + total m) (h0 : total m ≠ 0) :
    decode host' ord data (place ms i) m = .ub := by
  simp only [decode, getAll_ub host' ord (h m (List.mem_of_getElem? hi)) hc h0]
  rfl

/-- The bytes of a transfer as the system sees them. -/
def nat (bs : List Byte) : List Nat := bs.map BitVec.toNat

def ofNats (l : List Nat) : List Byte := l.map (BitVec.ofNat 8)

theorem ofNats_nat (bs : List Byte) : ofNats (nat bs) = bs := by
  simp [ofNats, nat, List.map_map, Function.comp_def]

theorem ofNats_prefix {l : List Nat} {bs : List Byte} (h : l <+: nat bs) : ofNats l <+: bs := by
  obtain ⟨t, ht⟩ := h
  exact ⟨ofNats t, by rw [← ofNats_nat bs, ← ht]; simp [ofNats]⟩

/-- **C192 (partial)**, over a TCP connection: if the messages are given to `send` in any pieces and every `send` takes all it is given, then in every
reachable state of the connection each message that `receive` has delivered entirely is deserialised to the values sent; one that has not is not there.
Missing: a `send` that takes less (`C192_short_send_violated`). -/
theorem C192_tcp_partial (host host' ord : Order) {buf : List Byte} {ms : List (List Field)} (h : Sound ms) (hr : ∀ m ∈ ms, total m ≤ buf.length)
    {bss : List (List Byte)} (he : encodeAll host ord buf ms = .ok bss) {dfl : Bool} {s : Flow.St}
    (hs : Own.Reach (Flow.step dfl) Flow.pre Flow.start s) (hg : Flow.given s.sent = nat bss.flatten) (hf : Flow.FullSends s.sent)
    {i : Nat} {m : List Field} (hi : ms[i]? = some m) :
    (place ms i + total m ≤ s.received.length → ∀ behind, Delivered host' ord (ofNats s.received ++ behind) ms i m) ∧
    (s.received.length < place ms i + total m → total m ≠ 0 → decode host' ord (ofNats s.received) (place ms i) m = .ub) := by
  have hp := C150_full_sends_partial hs hf
  rw [hg] at hp
  have hl : (ofNats s.received).length = s.received.length := by simp [ofNats]
  exact ⟨fun hc behind => C192_delivered host host' ord h he hr (ofNats_prefix hp) behind hi (by omega),
    fun hc h0 => C192_incomplete_ub host' ord h hi (by omega) h0⟩

/-- **C192**, through a `RamStream`: whatever the writes and reads, if the writes together give the messages, every message that was read entirely is
deserialised to the values sent. -/
theorem C192_ram (host host' ord : Order) {buf : List Byte} {ms : List (List Field)} (h : Sound ms) (hr : ∀ m ∈ ms, total m ≤ buf.length)
    {bss : List (List Byte)} (he : encodeAll host ord buf ms = .ok bss) {can : Nat → Bool} (hcan : ∀ n, can n = true) (ops : List (Ram.Op Byte))
    (hok : ∀ o ∈ ops, o.ok) (hg : (ops.map Ram.Op.given).flatten = bss.flatten) :
    ∃ v outs, Ram.run can Vec.empty ops = .ok (v, outs) ∧ ∀ i m, ms[i]? = some m →
      place ms i + total m ≤ (List.zipWith Ram.Op.taken ops outs).flatten.length →
      ∀ behind, Delivered host' ord ((List.zipWith Ram.Op.taken ops outs).flatten ++ behind) ms i m := by
  obtain ⟨v, outs, l, h1, _, _, h2⟩ := C45_read_is_written hcan ops hok
  rw [hg] at h2
  exact ⟨v, outs, h1, fun i m hi hc behind => C192_delivered host host' ord h he hr ⟨l, h2⟩ behind hi hc⟩

/-- **C192**, through a file: one stream writes the messages into a new file, streams with other descriptors read; every message that one of them has
read entirely is deserialised to the values sent. -/
theorem C192_file (host host' ord : Order) {buf : List Byte} {ms : List (List Field)} (h : Sound ms) (hr : ∀ m ∈ ms, total m ≤ buf.length)
    {bss : List (List Byte)} (he : encodeAll host ord buf ms = .ok bss) {d : Nat} {w : FileS.World Byte}
    (hw : Own.Reach FileS.step (FileS.onlyWriter d) (FileS.start [] d) w) (hg : w.sent <+: bss.flatten) {k : Nat} (hk : k ≠ d)
    {i : Nat} {m : List Field} (hi : ms[i]? = some m) (hc : place ms i + total m ≤ (w.got k).length) (behind : List Byte) :
    Delivered host' ord (w.got k ++ behind) ms i m := by
  have hp := ((C191_partial hw).2 k hk).1
  rw [List.nil_append] at hp
  exact C192_delivered host host' ord h he hr (hp.trans hg) behind hi hc

theorem prefix_state (dfl : Bool) (a b c d : Nat) : Own.Reach (Flow.step dfl) Flow.pre Flow.start
    ⟨[], [], [a, c, d], [([a, b], 1), ([c, d], 2)], [(3, 3)], 0, 0, true, false⟩ := by
  refine .step (o := .receive 3) (.step (o := .carry 3) (.step (o := .send [c, d] 2) (.step (o := .send [a, b] 1) .start ?_ rfl) ?_ rfl) ?_ rfl) ?_ rfl
  · exact ⟨rfl, by simp, by simp⟩
  · exact ⟨rfl, by simp, by simp⟩
  · exact trivial
  · exact .inl (by simp)

/-- **C192 violated** for a sender that looks at the status only: it sends two 16-bit numbers, the system takes one byte of the first message and
all of the second; every call returned a positive number, the statuses say that nothing failed, everything taken has arrived - and the receiver reads
another number than `v` unless the low byte of `v` happens to be the high byte of `v'`. -/
theorem C192_short_send_violated (host host' : Order) (dfl : Bool) {buf : List Byte} (hb : 2 ≤ buf.length) (v v' : BitVec 16) (hv : byteAt v 0 ≠ byteAt v' 1) :
    ∃ bss s, encodeAll host .be buf [[.whole .w2 v], [.whole .w2 v']] = .ok bss ∧ Own.Reach (Flow.step dfl) Flow.pre Flow.start s ∧
      s.sent.map Prod.fst = bss.map nat ∧ (∀ x ∈ s.sent, 0 < x.2) ∧ s.statusW = 0 ∧ s.statusR = 0 ∧ s.received = Flow.taken s.sent ∧
      ∃ x : BitVec 16, decode host' .be (ofNats s.received) 0 [.whole .w2 v] = .ok [⟨.w2, x⟩] ∧ x ≠ v := by
  refine ⟨_, _, C192_encoded host .be (ms := [[.whole .w2 v], [.whole .w2 v']]) ?_ ?_,
    prefix_state dfl (byteAt v 1).toNat (byteAt v 0).toNat (byteAt v' 1).toNat (byteAt v' 0).toNat, ?_, ?_, rfl, rfl, rfl, ?_⟩
  · intro m hm f hf
    simp only [List.mem_cons, List.not_mem_nil, or_false] at hm
    rcases hm with rfl | rfl <;> simp only [List.mem_singleton] at hf <;> subst hf <;> trivial
  · intro m hm
    simp only [List.mem_cons, List.not_mem_nil, or_false] at hm
    rcases hm with rfl | rfl <;> simpa [total, Field.len, Width.n] using hb
  · rfl
  · simp
  · have hx : ∃ x : BitVec 16, wire .be .w2 x = [byteAt v 1, byteAt v' 1] := by
      refine ⟨ofMem .be .w2 [byteAt v 1, byteAt v' 1], ?_⟩
      have := mem_ofMem .be .w2 [byteAt v 1, byteAt v' 1] rfl
      rw [mem_eq_wire] at this
      exact this
    obtain ⟨x, hx⟩ := hx
    obtain ⟨rs, ha, hr⟩ := getAll_ok host' .be [.whole .w2 x] (by simp [Field.inside]) (ofNats [(byteAt v 1).toNat, (byteAt v' 1).toNat, (byteAt v' 0).toNat]) 0
      [byteAt v' 0] (by
        show nat [byteAt v 1, byteAt v' 1, byteAt v' 0] |> ofNats |> List.drop 0 |> fun l => l = _
        simp only [ofNats_nat, layout, Field.wire, hx]
        rfl)
    match rs, hr with
    | [r], ⟨hr, _⟩ =>
      have hr : r = ⟨.w2, x⟩ := hr
      refine ⟨x, ?_, ?_⟩
      · have : getAll host' .be ⟨ofNats [(byteAt v 1).toNat, (byteAt v' 1).toNat, (byteAt v' 0).toNat], 0⟩ [.whole .w2 v]
            = getAll host' .be ⟨ofNats [(byteAt v 1).toNat, (byteAt v' 1).toNat, (byteAt v' 0).toNat], 0⟩ [.whole .w2 x] := rfl
        simp only [decode, this, ha, hr, Res.ok_bind]
      · intro he
        subst he
        have h2 : [byteAt x 1, byteAt x 0] = [byteAt x 1, byteAt v' 1] := hx
        simp only [List.cons.injEq, and_true, true_and] at h2
        exact hv h2

/-- Whole numbers as fields of a message. -/
def wholes (xs : List Value) : List Field := xs.map fun x => .whole x.w x.v

/-- The other order. -/
def other : Order → Order
  | .le => .be
  | .be => .le

/-- The number with its bytes in reverse (`C22_byte_order`). -/
def reversed (x : Value) : Value := ⟨x.w, rev x.w x.v⟩

theorem wire_other (o : Order) (w : Width) (v : BitVec (8 * w.n)) : wire (other o) w (rev w v) = wire o w v := by
  cases o <;> simp [other, wire, msbFirst_rev]

theorem layout_other (o : Order) (xs : List Value) : layout (other o) (wholes (xs.map reversed)) = layout o (wholes xs) := by
  induction xs with
  | nil => rfl
  | cons x xs ih =>
    simp only [wholes, List.map_cons, layout, Field.wire, reversed, wire_other] at ih ⊢
    rw [ih]

theorem received_wholes {xs rs : List Value} (h : Received (wholes xs) rs) : rs = xs := by
  induction xs generalizing rs with
  | nil => cases rs with
    | nil => rfl
    | cons r rs => exact h.elim
  | cons x xs ih => cases rs with
    | nil => exact h.elim
    | cons r rs =>
      obtain ⟨h1, h2⟩ := h
      have h1 : r = ⟨x.w, x.v⟩ := h1
      rw [h1, ih h2]

theorem getAll_shape (host o : Order) (s : De) (xs : List Value) :
    getAll host o s (wholes xs) = getAll host o s (wholes (xs.map reversed)) := by
  induction xs generalizing s with
  | nil => rfl
  | cons x xs ih =>
    simp only [wholes, List.map_cons, getAll, reversed] at ih ⊢
    have : ∀ y : BitVec (8 * x.w.n), getOne host o s (.whole x.w y) = getOne host o s (.whole x.w x.v) := fun _ => rfl
    rw [this (rev x.w x.v)]
    congr 1
    funext r
    rw [ih]

/-- **C192 (exact)**: a message of whole numbers read with the wire order it was written in gives the numbers; read with the other order it gives each
of them with its bytes reversed, which is the same message exactly if every number reads the same both ways. -/
theorem C192_order_exact (host host' ord : Order) {buf : List Byte} (xs : List Value) (hr : total (wholes xs) ≤ buf.length) :
    ∃ b bs, encode host ord buf (wholes xs) = .ok (b, bs) ∧ decode host' ord bs 0 (wholes xs) = .ok xs ∧
      decode host' (other ord) bs 0 (wholes xs) = .ok (xs.map reversed) ∧
      (decode host' (other ord) bs 0 (wholes xs) = .ok xs ↔ ∀ x ∈ xs, ∀ i, i < x.w.n → byteAt x.v i = byteAt x.v (x.w.n - 1 - i)) := by
  have hin : ∀ ys : List Value, ∀ f ∈ wholes ys, f.inside := by
    intro ys f hf
    obtain ⟨y, _, rfl⟩ := List.mem_map.mp hf
    trivial
  have hrev : decode host' (other ord) (layout ord (wholes xs)) 0 (wholes xs) = .ok (xs.map reversed) := by
    obtain ⟨rs, ha, hb⟩ := getAll_ok host' (other ord) (wholes (xs.map reversed)) (hin _) (layout ord (wholes xs)) 0 []
      (by simp [layout_other])
    rw [decode, getAll_shape, ha, Res.ok_bind, received_wholes hb]
  refine ⟨_, _, encode_ok (hin xs) hr, ?_, hrev, ?_⟩
  · obtain ⟨rs, ha, hb⟩ := getAll_ok host' ord (wholes xs) (hin _) (layout ord (wholes xs)) 0 [] (by simp)
    rw [decode, ha, Res.ok_bind, received_wholes hb]
  · rw [hrev, Res.ok.injEq]
    constructor
    · intro he x hx i hi
      have : reversed x = x := by
        have h1 : (xs.map reversed) = xs.map id := by rw [he, List.map_id]
        exact (List.map_inj_left.mp h1) x hx
      have h2 : rev x.w x.v = x.v := by
        obtain ⟨w, v⟩ := x
        simpa [reversed] using this
      rw [← rev_byte x.w x.v i hi, h2]
    · intro hp
      have h1 : (xs.map reversed) = xs.map id := by
        apply List.map_congr_left
        intro x hx
        obtain ⟨w, v⟩ := x
        have : rev w v = v := by
          apply byte_ext
          intro i hi
          rw [rev_byte w v i hi]
          exact (hp _ hx i hi).symm
        simp only [reversed, this, id]
      rw [h1, List.map_id]

/-! ### Concrete cases -/

/-- Two messages: a 16-bit number with three bytes of a 32-bit one, and a byte. -/
def twoMessages : List (List Field) := [[.whole .w2 0x1234#16, .part .w4 0xAABBCCDD#32 0#32 3 1 .be .le], [.whole .w1 0x7F#8]]

theorem twoMessages_sound : Sound twoMessages := by
  intro m hm f hf
  simp only [twoMessages, List.mem_cons, List.not_mem_nil, or_false] at hm
  rcases hm with rfl | rfl
  · simp only [List.mem_cons, List.not_mem_nil, or_false] at hf
    rcases hf with rfl | rfl
    · trivial
    · show 1 + 3 ≤ 4; decide
  · simp only [List.mem_singleton] at hf
    subst hf
    trivial

theorem twoMessages_fit : ∀ m ∈ twoMessages, total m ≤ (List.replicate 8 0#8 : List Byte).length := by
  intro m hm
  simp only [twoMessages, List.mem_cons, List.not_mem_nil, or_false] at hm
  rcases hm with rfl | rfl <;> decide

example := C192_encoded .le .be twoMessages_sound twoMessages_fit
example := C192_delivered .le .be .be twoMessages_sound (C192_encoded .le .be twoMessages_sound twoMessages_fit) twoMessages_fit
  (data := [0x12, 0x34, 0xBB, 0xCC, 0xDD]) ⟨[0x7F], by decide⟩ [0#8] (i := 0) rfl (by decide)
example := C192_incomplete_ub .be .be twoMessages_sound (data := [0x12, 0x34, 0xBB, 0xCC, 0xDD]) (i := 1) rfl (by decide) (by decide)
example := C192_tcp_partial .le .be .be twoMessages_sound twoMessages_fit (C192_encoded .le .be twoMessages_sound twoMessages_fit) (dfl := true)
  (.visit ([.send [0x12, 0x34, 0xBB] 3, .send [0xCC, 0xDD, 0x7F] 3, .carry 5, .receive 2, .receive 9] : List Flow.Op) (by decide +kernel))
  (by decide +kernel) (by unfold Flow.FullSends; decide +kernel) (i := 0) rfl
example := C192_ram .le .be .be twoMessages_sound twoMessages_fit (C192_encoded .le .be twoMessages_sound twoMessages_fit) (can := fun _ => true)
  (fun _ => rfl) [.write .linear [0x12, 0x34, 0xBB, 0xCC, 0xDD, 0x7F] 0 6, .read .linear (List.replicate 5 0) 0 5]
  (by intro o ho; simp only [List.mem_cons, List.not_mem_nil, or_false] at ho; rcases ho with rfl | rfl <;> exact ⟨by decide, by decide⟩) (by decide)
example := C192_file .le .be .be twoMessages_sound twoMessages_fit (C192_encoded .le .be twoMessages_sound twoMessages_fit) (d := 0)
  (.step (o := .read 1 (some 9) (List.replicate 6 0#8) 0 6) (.step (o := .write 0 (some 9) [0x12, 0x34, 0xBB, 0xCC, 0xDD, 0x7F] 0 6) .start
    (by simp [FileS.onlyWriter]) rfl) (by simp [FileS.onlyWriter]) rfl) ⟨[], by decide⟩ (k := 1) (by decide) (i := 1) rfl (by decide +kernel) []
example := C192_short_send_violated .le .be true (buf := [0#8, 0#8]) (by decide) 0x1234#16 0x5678#16 (by decide)
example := C192_order_exact .le .be .be (buf := List.replicate 6 0#8) [⟨.w2, 0x1234#16⟩, ⟨.w4, 7#32⟩] (by decide)

end Flame.Transport
