import Verif.Proof.LibertyExact
/-!
# C105: only MQTT is understood

`PacketSaysBut L p bs` (Spec/Liberty.lean): `bs` is the packet `p` in MQTT's wire format, but for the liberties of `L`.
-/

namespace Mqrstt.Props
open Mqrstt Spec

/-- With no liberty this is MQTT's wire format itself. -/
theorem C105_no_liberty {p : Packet} {bs : Bytes} : PacketSaysBut strictly p bs ↔ PacketSays p bs := packet_strictly

/-- **C105 (partial), buffered reader.** Whatever the buffered reader accepts, at whatever place in whatever bytes, is a packet
in MQTT's wire format that says what the reader returns, up to the liberties of `buffered`: lengths written too long, bytes
after the last field, reserved bits, authentication data without method, the subscription identifier of SUBACK, and properties
of a publish acknowledgement that are longer than announced. -/
theorem C105_buffered_partial {b rest : Bytes} {p : Packet} (h : Packet.read b = (.ok p, rest)) :
    ∃ bs, b = bs ++ rest ∧ PacketSaysBut buffered p bs := read_says h

/-- **C105 (partial), streaming reader.** The same of the streaming reader and the liberties of `streaming`: lengths written too
long, reserved bits, authentication data without method, the subscription identifier of SUBACK or a repeated one, and a packet
length that is not the length of the packet. -/
theorem C105_streaming_partial {b rest : Bytes} {p : Packet} (h : Packet.asyncRead b = .ok (p, rest)) :
    ∃ bs, b = bs ++ rest ∧ PacketSaysBut streaming p bs := asyncRead_says h

/-- a CONNACK with a receive maximum of 10, and the next packet: both readers -/
example : (∃ p, Packet.read [0x20, 6, 1, 0, 3, 0x21, 0, 10, 0xD0] = (.ok p, [0xD0]) ∧
      ∃ bs, [0x20, 6, 1, 0, 3, 0x21, 0, 10, 0xD0] = bs ++ [0xD0] ∧ PacketSaysBut buffered p bs) ∧
    ∃ p, Packet.asyncRead [0x20, 6, 1, 0, 3, 0x21, 0, 10, 0xD0] = .ok (p, [0xD0]) ∧
      ∃ bs, [0x20, 6, 1, 0, 3, 0x21, 0, 10, 0xD0] = bs ++ [0xD0] ∧ PacketSaysBut streaming p bs :=
  ⟨⟨_, rfl, C105_buffered_partial rfl⟩, _, rfl, C105_streaming_partial rfl⟩

/-- liberties but one -/
def allBut (l : Liberty) (L : Liberty → Prop) : Liberty → Prop := fun k => L k ∧ k ≠ l

/-- **C105 is violated** by the buffered reader in each of these ways: for each liberty there are bytes it accepts that are the
packet it returns only when that liberty is taken. -/
theorem C105_buffered_violated (l : Liberty) (hl : buffered l) :
    ∃ b p, Packet.read b = (.ok p, []) ∧ ¬ PacketSaysBut (allBut l buffered) p b ∧ ¬ PacketSays p b := by
  simp only [← C105_no_liberty]
  have hn : ¬ allBut l buffered l := fun h => h.2 rfl
  have hs : ¬ strictly l := id
  cases l with
  | longLength => exact ⟨_, _, rfl, witness_long hn, witness_long hs⟩
  | trailing => exact ⟨_, _, rfl, witness_trailing hn, witness_trailing hs⟩
  | reserved =>
    obtain ⟨c, hc⟩ : ∃ c, Packet.read [0x20, 3, 2, 0, 0] = (.ok (.connAck c), []) := ⟨_, rfl⟩
    exact ⟨_, _, hc, witness_reserved hn, witness_reserved hs⟩
  | loneAuthData =>
    obtain ⟨a, ha, h1, h2⟩ : ∃ a, Packet.read [0xF0, 6, 0, 4, 0x16, 0, 1, 7] = (.ok (.auth a), []) ∧
      a.props.val .authenticationData = some [7] ∧ a.props.val .authenticationMethod = none := ⟨_, rfl, rfl, rfl⟩
    exact ⟨_, _, ha, witness_auth hn (by simp [h1]) h2, witness_auth hs (by simp [h1]) h2⟩
  | foreignSubId =>
    obtain ⟨a, ha, h1⟩ : ∃ a, Packet.read [0x90, 6, 0, 1, 2, 0x0B, 1, 0] = (.ok (.subAck a), []) ∧
      a.props.val .subscriptionIdentifier = some (1 : UInt32) := ⟨_, rfl, rfl⟩
    exact ⟨_, _, ha, witness_foreign hn h1, witness_foreign hs h1⟩
  | repeatedSubId => exact absurd rfl hl.1
  | sectionLength =>
    obtain ⟨a, ha⟩ : ∃ a, Packet.read [0x40, 6, 0, 1, 0, 0, 7, 7] = (.ok (.pubAck a), []) := ⟨_, rfl⟩
    exact ⟨_, _, ha, witness_section hn, witness_section hs⟩
  | bodyLength => exact absurd rfl hl.2

/-- **C105 is violated** by the streaming reader in each of these ways. -/
theorem C105_streaming_violated (l : Liberty) (hl : streaming l) :
    ∃ b p, Packet.asyncRead b = .ok (p, []) ∧ ¬ PacketSaysBut (allBut l streaming) p b ∧ ¬ PacketSays p b := by
  simp only [← C105_no_liberty]
  have hn : ¬ allBut l streaming l := fun h => h.2 rfl
  have hs : ¬ strictly l := id
  cases l with
  | longLength => exact ⟨_, _, rfl, witness_long hn, witness_long hs⟩
  | trailing => exact absurd rfl hl.1
  | reserved =>
    obtain ⟨c, hc⟩ : ∃ c, Packet.asyncRead [0x20, 3, 2, 0, 0] = .ok (.connAck c, []) := ⟨_, rfl⟩
    exact ⟨_, _, hc, witness_reserved hn, witness_reserved hs⟩
  | loneAuthData =>
    obtain ⟨a, ha, h1, h2⟩ : ∃ a, Packet.asyncRead [0xF0, 6, 0, 4, 0x16, 0, 1, 7] = .ok (.auth a, []) ∧
      a.props.val .authenticationData = some [7] ∧ a.props.val .authenticationMethod = none := ⟨_, rfl, rfl, rfl⟩
    exact ⟨_, _, ha, witness_auth hn (by simp [h1]) h2, witness_auth hs (by simp [h1]) h2⟩
  | foreignSubId =>
    obtain ⟨a, ha, h1⟩ : ∃ a, Packet.asyncRead [0x90, 6, 0, 1, 2, 0x0B, 1, 0] = .ok (.subAck a, []) ∧
      a.props.val .subscriptionIdentifier = some (1 : UInt32) := ⟨_, rfl, rfl⟩
    exact ⟨_, _, ha, witness_foreign hn h1, witness_foreign hs h1⟩
  | repeatedSubId =>
    obtain ⟨s, h1⟩ : ∃ s, Packet.asyncRead [0x82, 11, 0, 1, 4, 0x0B, 1, 0x0B, 2, 0, 1, 0x61, 0] = .ok (.subscribe s, []) :=
      ⟨_, rfl⟩
    exact ⟨_, _, h1, witness_repeated hn, witness_repeated hs⟩
  | sectionLength => exact absurd rfl hl.2
  | bodyLength => exact ⟨_, _, rfl, witness_body hn, witness_body hs⟩

end Mqrstt.Props
