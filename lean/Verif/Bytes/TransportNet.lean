import Verif.Bytes.TransportProps
import Verif.Net.DgramProps
import Verif.Stream.PipeProps

/-!
# C192: messages through pipes and in datagrams
-/

namespace Flame.Transport
open Bytes BytesSpec

/-- **C192**, through a `PipeStream` used with linear ranges: every message that was read entirely is deserialised to the values sent. -/
theorem C192_pipe (host host' ord : Order) {buf : List Byte} {ms : List (List Field)} (h : Sound ms) (hr : ∀ m ∈ ms, total m ≤ buf.length)
    {bss : List (List Byte)} (he : encodeAll host ord buf ms = .ok bss) {made : Bool} {s : PipeS.St Byte}
    (hs : Own.Reach PipeS.step PipeSLemmas.proper (PipeS.start made) s) (hg : s.sent <+: bss.flatten)
    {i : Nat} {m : List Field} (hi : ms[i]? = some m) (hc : place ms i + total m ≤ s.received.length) (behind : List Byte) :
    Delivered host' ord (s.received ++ behind) ms i m :=
  C192_delivered host host' ord h he hr (List.IsPrefix.trans ⟨s.data, (C158_partial hs).1.symm⟩ hg) behind hi hc

/-- **C192**, over UDP: whatever the network loses, reorders and doubles, every `receive` that did not fail hands over bytes of one datagram sent to its address; if
that datagram is a serialised message, the message is deserialised to the values sent when the range had room for it, and cut short, so that deserialising reads beyond
what was received, exactly when it had not. -/
theorem C192_udp (host' ord : Order) {srv : Nat} {s : Dgram.St} (hs : Own.Reach (Dgram.step srv) (Dgram.pre srv) Dgram.start s) {g : Dgram.Got}
    (hg : g ∈ s.got) (h0 : 0 ≤ g.ret) :
    ∃ p ∈ s.sent, p.dst = g.at_ ∧ ∀ (host : Order) (buf b bs : List Byte) (m : List Field), (∀ f ∈ m, f.inside) → total m ≤ buf.length →
      encode host ord buf m = .ok (b, bs) → p.data = nat bs →
      (total m ≤ g.room → g.ret = (total m : Int) ∧ ∀ behind, ∃ rs, decode host' ord (ofNats g.data ++ behind) 0 m = .ok rs ∧ Received m rs) ∧
      (g.room < total m → g.ret = (g.room : Int) ∧ decode host' ord (ofNats g.data) 0 m = .ub) := by
  rcases C172_one_datagram hs g hg with ⟨p, hp, h1, _, h3, h4⟩ | ⟨h1, _⟩
  · refine ⟨p, hp, h1, ?_⟩
    intro host buf b bs m hm hr he hd
    rw [encode_ok hm hr] at he
    simp only [Res.ok.injEq, Prod.mk.injEq] at he
    obtain ⟨_, rfl⟩ := he
    have hl := layout_len ord hm
    have hn : (nat (layout ord m)).length = total m := by simp [nat, hl]
    constructor
    · intro hc
      have hgd : g.data = nat (layout ord m) := by rw [h3, hd, List.take_of_length_le (by omega)]
      refine ⟨by rw [h4, hgd, hn], fun behind => ?_⟩
      rw [hgd, ofNats_nat]
      obtain ⟨rs, ha, hb⟩ := getAll_ok host' ord m hm (layout ord m ++ behind) 0 behind (by simp)
      exact ⟨rs, by simp only [decode, ha, Res.ok_bind], hb⟩
    · intro hc
      have hgl : g.data.length = g.room := by rw [h3, hd, List.length_take, hn]; omega
      refine ⟨by rw [h4, hgl], ?_⟩
      have : (ofNats g.data).length = g.room := by simp [ofNats, hgl]
      simp only [decode, getAll_ub host' ord hm (data := ofNats g.data) (off := 0) (by omega) (by omega)]
      rfl
  · omega

example := C192_pipe .le .be .be twoMessages_sound twoMessages_fit (C192_encoded .le .be twoMessages_sound twoMessages_fit) (made := true)
  (.visit ([.write (some 9) [0x12, 0x34, 0xBB, 0xCC, 0xDD, 0x7F] 0 6, .read (some 9) (List.replicate 5 0#8) 0 5] : List (PipeS.Op Byte)) (by decide +kernel))
  ⟨[], by decide +kernel⟩ (i := 0) rfl (by decide +kernel) []

/-- A client sends a 16-bit number to its server; the server's range has room for one byte only, then a second one has room for all. -/
def udpOps : List Dgram.Op := [.clientSend 7 [0x12, 0x34], .double 0, .carry 0, .carry 0, .serverReceive 1, .serverReceive 2]

example := C192_udp .be .be (srv := 1) (.visit udpOps (by decide +kernel)) (g := ⟨1, 2, 2, [0x12, 0x34], 7⟩) (by decide +kernel) (by decide)
example := C192_udp .be .be (srv := 1) (.visit udpOps (by decide +kernel)) (g := ⟨1, 1, 1, [0x12], 7⟩) (by decide +kernel) (by decide)

end Flame.Transport
