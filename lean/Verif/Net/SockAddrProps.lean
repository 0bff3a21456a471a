import Verif.Net.SockAddr
import Verif.Net.Ipv4Props

/-! # C73: a socket's address is the address it was made for -/

namespace Flame

open BytesSpec (Byte)
open Ipv4Spec ToStrSpec

namespace SockAddr

/-- What is assumed of `inet_addr`: on dotted decimal text (no superfluous zeros, parts up to 255) it gives the four parts. -/
def Inet (inet : List Byte → List Nat) : Prop :=
  ∀ a b c d ta tb tc td, a ≤ 255 → b ≤ 255 → c ≤ 255 → d ≤ 255 → NatText a ta → NatText b tb → NatText c tc → NatText d td →
    inet (join [ta, tb, tc, td]) = [a, b, c, d]

/-- What the network is given for port `p`: its two bytes, the high one first. -/
def wirePort (p : Nat) : List Nat := [p / 256, p % 256]

theorem mem_swap (le : Bool) {v : Nat} (h : v < 65536) : mem16 le (swap16 le v) = wirePort v := by
  cases le <;> simp only [mem16, swap16, wirePort, if_true, Bool.false_eq_true, if_false]
  have h1 : (v % 256 * 256 + v / 256) % 256 = v / 256 := by omega
  have h2 : (v % 256 * 256 + v / 256) / 256 = v % 256 := by omega
  rw [h1, h2]

theorem swap_val (le : Bool) {v : Nat} (h : v < 65536) : swap16 le (val16 le (wirePort v)) = v := by
  cases le <;> simp only [val16, swap16, wirePort, if_true, Bool.false_eq_true, if_false] <;> omega

theorem toU16_lt (p : Int) : toU16 p < 65536 := by unfold toU16; omega

/-- The number a formatted octet spells. -/
def spelled (v : Nat) : Nat := if 100 ≤ v ∧ v / 10 % 10 = 0 then v / 100 * 10 + v % 10 else v

theorem octet_text {v : Nat} (hv : v ≤ 255) : NatText (spelled v) (Ipv4.octet (v : Int)) := by
  obtain ⟨h1, h2, h3, h4⟩ := Ipv4.octetDigits_ok v hv
  rw [Ipv4.octet_nat]
  exact ⟨_, rfl, h1, h2, by rw [h3]; rfl, h4⟩

theorem octet_nonzero {v : Nat} (hv : v ≤ 255) : 0#8 ∉ Ipv4.octet (v : Int) := by
  obtain ⟨h1, _, _, _⟩ := Ipv4.octetDigits_ok v hv
  rw [Ipv4.octet_nat]
  exact (Ipv4.decimal_no (Ipv4.digits_text_decimal h1).1).2

theorem spelled_le {v : Nat} (hv : v ≤ 255) : spelled v ≤ 255 := by unfold spelled; split <;> omega

/-- Split a text at its dots (for the example below). -/
def splitDots : List Byte → List (List Byte)
  | [] => [[]]
  | b :: t => if b = 46#8 then [] :: splitDots t else match splitDots t with
    | [] => [[b]]
    | c :: cs => (b :: c) :: cs

theorem split_last {c : List Byte} (h : 46#8 ∉ c) : splitDots c = [c] := by
  induction c with
  | nil => rfl
  | cons b c ih =>
    simp only [List.mem_cons, not_or] at h
    simp only [splitDots, if_neg (Ne.symm h.1), ih h.2]

theorem split_dot {c t : List Byte} (h : 46#8 ∉ c) : splitDots (c ++ 46#8 :: t) = c :: splitDots t := by
  induction c with
  | nil => simp [splitDots]
  | cons b c ih =>
    simp only [List.mem_cons, not_or] at h
    simp only [List.cons_append, splitDots, if_neg (Ne.symm h.1), ih h.2]

theorem text_value {v : Nat} {t : List Byte} (h : NatText v t) : 46#8 ∉ t ∧ value t = v := by
  obtain ⟨ds, e, h1, _, h3, _⟩ := h
  obtain ⟨h5, h6⟩ := Ipv4.digits_text_decimal h1
  subst e
  exact ⟨(Ipv4.decimal_no h5).1, h6.trans h3⟩

end SockAddr

open SockAddr

/-- **C73, exactly.** For every address and every `int` port a client socket gets the octets the text of the address spells (an octet
`100..109`, `200..209` loses its middle zero) and the low 16 bits of the port, high byte first, on both kinds of hosts. -/
theorem C73_client_exact {inet : List Byte → List Nat} (hi : Inet inet) (le : Bool) {a b c d : Nat} (ha : a ≤ 255) (hb : b ≤ 255)
    (hc : c ≤ 255) (hd : d ≤ 255) (port : Int) :
    client le inet ⟨[(a : Int), b, c, d], port⟩ =
      .ok ⟨wirePort (port % 65536).toNat,
        [a, b, c, d].map fun v => if 100 ≤ v ∧ v / 10 % 10 = 0 then v / 100 * 10 + v % 10 else v⟩ := by
  obtain ⟨pad, hf, _⟩ := Ipv4.format_four a b c d
  have hz : ∀ x ∈ join [Ipv4.octet (a : Int), Ipv4.octet (b : Int), Ipv4.octet (c : Int), Ipv4.octet (d : Int)], x ≠ 0#8 := by
    intro x hx e
    subst e
    rcases Ipv4.mem_join_iff hx with e | ⟨o, ho, hm⟩
    · simp at e
    · simp only [List.mem_cons, List.not_mem_nil, or_false] at ho
      rcases ho with rfl | rfl | rfl | rfl
      · exact octet_nonzero ha hm
      · exact octet_nonzero hb hm
      · exact octet_nonzero hc hm
      · exact octet_nonzero hd hm
  have ht := hi _ _ _ _ _ _ _ _ (spelled_le ha) (spelled_le hb) (spelled_le hc) (spelled_le hd) (octet_text ha) (octet_text hb)
    (octet_text hc) (octet_text hd)
  unfold client
  simp only [hf]
  rw [Ipv4.takeWhile_text hz, ht, mem_swap le (toU16_lt port)]
  rfl

/-- **C73, what holds for clients.** If no octet is `100..109` or `200..209` and the port is `0..65535`, the socket addresses exactly
the given address and port. -/
theorem C73_client_partial {inet : List Byte → List Nat} (hi : Inet inet) (le : Bool) {a b c d : Nat} (ha : a ≤ 255) (hb : b ≤ 255)
    (hc : c ≤ 255) (hd : d ≤ 255) (hgood : ∀ v ∈ [a, b, c, d], 100 ≤ v → v / 10 % 10 ≠ 0) {port : Nat} (hp : port < 65536) :
    client le inet ⟨[(a : Int), b, c, d], (port : Int)⟩ = .ok ⟨[port / 256, port % 256], [a, b, c, d]⟩ := by
  rw [C73_client_exact hi le ha hb hc hd]
  have hport : ((port : Int) % 65536).toNat = port := by omega
  have hm : ∀ v ∈ [a, b, c, d], (if 100 ≤ v ∧ v / 10 % 10 = 0 then v / 100 * 10 + v % 10 else v) = v := by
    intro v hv
    rw [if_neg]
    rintro ⟨h1, h2⟩
    exact hgood v hv h1 h2
  rw [hport, List.map_congr_left hm]
  simp [wirePort]

/-- **C73 fails.** If some octet is `100..109` or `200..209` the client addresses a different host. -/
theorem C73_other_host {inet : List Byte → List Nat} (hi : Inet inet) (le : Bool) {a b c d : Nat} (ha : a ≤ 255) (hb : b ≤ 255)
    (hc : c ≤ 255) (hd : d ≤ 255) (hbad : ∃ v ∈ [a, b, c, d], 100 ≤ v ∧ v / 10 % 10 = 0) (port : Int) :
    ∃ x, client le inet ⟨[(a : Int), b, c, d], port⟩ = .ok x ∧ x.ip ≠ [a, b, c, d] := by
  refine ⟨_, C73_client_exact hi le ha hb hc hd port, ?_⟩
  intro he
  obtain ⟨v, hv, hv1, hv2⟩ := hbad
  have key : ∀ l : List Nat, l.map (fun v => if 100 ≤ v ∧ v / 10 % 10 = 0 then v / 100 * 10 + v % 10 else v) = l →
      ∀ v ∈ l, (if 100 ≤ v ∧ v / 10 % 10 = 0 then v / 100 * 10 + v % 10 else v) = v := by
    intro l
    induction l with
    | nil => intro _ v hv; cases hv
    | cons y l ih =>
      intro h v hv
      simp only [List.map_cons, List.cons.injEq] at h
      rcases List.mem_cons.mp hv with e | e
      · subst e; exact h.1
      · exact ih h.2 v e
  have := key _ he v hv
  rw [if_pos ⟨hv1, hv2⟩] at this
  omega

/-- **C73, servers.** A server socket is bound to every interface and to the low 16 bits of the port. -/
theorem C73_server (le : Bool) (port : Int) : server le port = ⟨wirePort (port % 65536).toNat, [0, 0, 0, 0]⟩ := by
  unfold server
  rw [mem_swap le (toU16_lt port)]
  rfl

/-- **C73, ports outside `0..65535`** are not rejected: they address another port. -/
theorem C73_port_wraps (le : Bool) (port : Int) : server le (port + 65536) = server le port := by
  rw [C73_server, C73_server]
  congr 2
  omega

/-- **C73, reading the port back** gives the port. -/
theorem C73_get_port (le : Bool) (j2 j3 : Int) {p : Nat} (hp : p < 65536) (ip : List Nat) :
    (getIpv4 le j2 j3 ⟨wirePort p, ip⟩).port = p := by
  simp only [getIpv4]
  rw [swap_val le hp]

/-- **C73, reading the address back, exactly.** On a little-endian host `getIpv4` returns the octets of the socket's address only for
addresses `a.0.0.0` (and only if the stack happened to hold zeros); on a big-endian host only for `0.0.0.0`. -/
theorem C73_get_exact (le : Bool) (j2 j3 : Int) {a b c d : Nat} (ha : a ≤ 255) (hb : b ≤ 255) (hc : c ≤ 255) (hd : d ≤ 255)
    (port : List Nat) : (getIpv4 le j2 j3 ⟨port, [a, b, c, d]⟩).ip = [(a : Int), b, c, d] ↔
      (le = true ∨ a = 0) ∧ b = 0 ∧ c = 0 ∧ d = 0 ∧ j2 = 0 ∧ j3 = 0 := by
  have hw : ∀ x : Nat, x < 65536 → Ipv4.wrap16 (x : Int) = if x < 32768 then (x : Int) else (x : Int) - 65536 := by
    intro x hx
    unfold Ipv4.wrap16
    rw [Int.bmod_def]
    split <;> split <;> omega
  cases le
  · simp only [getIpv4, List.take_succ_cons, List.take_zero, List.drop_succ_cons, List.drop_zero, val16, Bool.false_eq_true, if_false,
      List.cons.injEq, and_true, false_or]
    rw [hw _ (by omega), hw _ (by omega)]
    split <;> split <;> omega
  · simp only [getIpv4, List.take_succ_cons, List.take_zero, List.drop_succ_cons, List.drop_zero, val16, if_true, List.cons.injEq,
      and_true, true_or, true_and]
    rw [hw _ (by omega), hw _ (by omega)]
    split <;> split <;> omega

/-- **C73 fails, reading back.** For every address with a non-zero octet after the first, whatever the host and the stack, the address
read back is not the socket's. -/
theorem C73_get_violated (le : Bool) (j2 j3 : Int) {a b c d : Nat} (ha : a ≤ 255) (hb : b ≤ 255) (hc : c ≤ 255) (hd : d ≤ 255)
    (h : b ≠ 0 ∨ c ≠ 0 ∨ d ≠ 0) (port : List Nat) : (getIpv4 le j2 j3 ⟨port, [a, b, c, d]⟩).ip ≠ [(a : Int), b, c, d] := by
  rw [Ne, C73_get_exact le j2 j3 ha hb hc hd]
  omega

/-- **C73 fails, reconnecting.** A client connected to `127.0.0.1` asks, on reconnecting, for the address spelled "127.256.0.0" (with zeros on
the stack), whatever `inet_addr` makes of it, on a little-endian host. -/
theorem C73_reconnect_localhost (inet : List Byte → List Nat) (fd : Nat) (p : Nat) (hp : p < 65536) (desc : Option Nat) :
    reconnect true inet 0 0 (some fd) ⟨⟨wirePort p, [127, 0, 0, 1]⟩, desc⟩ =
      .ok ⟨⟨wirePort p, inet ("127.256.0.0".toList.map fun c => BitVec.ofNat 8 c.toNat)⟩, some fd⟩ := by
  have hport : (getIpv4 true 0 0 ⟨wirePort p, [127, 0, 0, 1]⟩).port = p := C73_get_port true 0 0 hp _
  have hip : (getIpv4 true 0 0 ⟨wirePort p, [127, 0, 0, 1]⟩).ip = [127, 256, 0, 0] := by
    simp only [getIpv4]
    decide
  have hf : Ipv4.format [127, 256, 0, 0] =
      .ok ("127.256.0.0".toList.map (fun c => BitVec.ofNat 8 c.toNat) ++ List.replicate 5 0#8) := by decide
  have ht : ("127.256.0.0".toList.map (fun c => BitVec.ofNat 8 c.toNat) ++ List.replicate 5 0#8).takeWhile (· ≠ 0#8) =
      "127.256.0.0".toList.map (fun c => BitVec.ofNat 8 c.toNat) := by decide
  have hu : toU16 (p : Int) = p := by unfold toU16; omega
  simp only [reconnect, createTcpClient, client, hport, hip, hf, ht, hu, mem_swap true hp]
  rfl

/-- **C73 fails, failed reconnection.** When no new socket can be made, the address is lost: the object then addresses `0.0.0.0:0`. -/
theorem C73_failed_reconnect_forgets (le : Bool) (inet : List Byte → List Nat) (o : Ipv4.Obj) {a : Addr}
    (h : client le inet o = .ok a) : createTcpClient le inet none o = .ok ⟨⟨[0, 0], [0, 0, 0, 0]⟩, none⟩ := by
  simp [createTcpClient, h]

/-- An `inet_addr` as assumed exists: split at the dots, take the values. -/
example : Inet (fun t => (splitDots t).map value) := by
  intro a b c d ta tb tc td _ _ _ _ ha hb hc hd
  obtain ⟨a1, a2⟩ := text_value ha
  obtain ⟨b1, b2⟩ := text_value hb
  obtain ⟨c1, c2⟩ := text_value hc
  obtain ⟨d1, d2⟩ := text_value hd
  simp only [join]
  rw [split_dot a1, split_dot b1, split_dot c1, split_last d1]
  simp [a2, b2, c2, d2]

example : ∀ v ∈ [192, 168, 255, 110], 100 ≤ v → v / 10 % 10 ≠ 0 := by decide
example : ∃ v ∈ [10, 0, 0, 105], 100 ≤ v ∧ v / 10 % 10 = 0 := ⟨105, by decide⟩
example : (getIpv4 true 7 8 ⟨wirePort 8080, [192, 168, 1, 77]⟩) = ⟨[-22336, 19713, 7, 8], 8080⟩ := by decide
example : server true 65616 = ⟨[0, 80], [0, 0, 0, 0]⟩ := by decide

namespace Flame
open BytesSpec (Byte)
open Ipv4Spec ToStrSpec
open SockAddr
private theorem someInet : Inet (fun t => (splitDots t).map value) := by
  intro a b c d ta tb tc td _ _ _ _ ha hb hc hd
  obtain ⟨a1, a2⟩ := text_value ha
  obtain ⟨b1, b2⟩ := text_value hb
  obtain ⟨c1, c2⟩ := text_value hc
  obtain ⟨d1, d2⟩ := text_value hd
  simp only [join]
  rw [split_dot a1, split_dot b1, split_dot c1, split_last d1]
  simp [a2, b2, c2, d2]
example := C73_client_exact someInet true (a := 192) (b := 168) (c := 1) (d := 105) (by decide) (by decide) (by decide) (by decide) 8080
example := C73_client_partial someInet true (a := 192) (b := 168) (c := 255) (d := 110) (by decide) (by decide) (by decide) (by decide)
  (by decide) (port := 8080) (by decide)
example := C73_other_host someInet true (a := 10) (b := 0) (c := 0) (d := 105) (by decide) (by decide) (by decide) (by decide)
  ⟨105, by decide⟩ 8080
example := C73_get_port true 7 8 (p := 8080) (by decide) [192, 168, 1, 77]
example := C73_get_exact true 7 8 (a := 192) (b := 168) (c := 1) (d := 77) (by decide) (by decide) (by decide) (by decide) [31, 144]
example := C73_get_violated true 7 8 (a := 192) (b := 168) (c := 1) (d := 77) (by decide) (by decide) (by decide) (by decide) (by decide) [31, 144]
example := C73_reconnect_localhost (fun t => (splitDots t).map value) 5 8080 (by decide) none
end Flame

end Flame
