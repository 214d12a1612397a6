import Verif.Spec.PropSection
import Verif.Spec.Codes
/-!
# What the errors of the decoder claim about a packet (C110)
-/

namespace Spec
open Mqrstt

/-- the property sections of each packet: CONNECT has a second one in the will -/
def sectionsOf : PacketType → List Section
  | .connect => [.connect, .will] | .connAck => [.connAck] | .publish => [.publish] | .pubAck => [.pubAck]
  | .pubRec => [.pubRec] | .pubRel => [.pubRel] | .pubComp => [.pubComp] | .subscribe => [.subscribe]
  | .subAck => [.subAck] | .unsubscribe => [.unsubscribe] | .unsubAck => [.unsubAck]
  | .disconnect => [.disconnect] | .auth => [.auth] | .pingReq => [] | .pingResp => []

/-- somewhere in the packet a property section begins whose properties `items` are followed by the byte `x` where the
identifier of a property belongs -/
def Follows (body : Bytes) (items : List WireItem) (x : UInt8) : Prop :=
  ∃ before len good more, body = before ++ (len ++ (good ++ x :: more)) ∧ IsVbi len ∧ vbiValue len ≠ 0 ∧
    ItemsBytes items good

/-- somewhere in the packet there is a string that is no UTF-8: a length of two bytes and that many bytes -/
def BadText (body : Bytes) : Prop :=
  ∃ x y s, (x :: y :: s) <:+: body ∧ s.length = 256 * x.toNat + y.toNat ∧ validUtf8 s = false

/-- What the error says is true of a packet of type `k` with `n` bytes after its fixed header, of which `body` are at hand. -/
def Justified (k : PacketType) (n : Nat) (body : Bytes) : DeErr → Prop
  | .unknownFixedHeader _ => False
  | .insufficientData available needed => available < needed ∧ available ≤ n
  | .remainingDataError read length => length = n ∧ read ≠ length
  | .duplicateProperty p => ∃ s items, s ∈ sectionsOf k ∧ Follows body items (propertyId p) ∧
      (∃ i ∈ items, i.type = p) ∧ repeatable s p = false
  | .unexpectedProperty p k' => k' = k ∧ ∃ s items, s ∈ sectionsOf k ∧ Follows body items (propertyId p) ∧ s ∉ carriers p
  | .unknownProperty v => ∃ items, Follows body items v ∧ ∀ p, propertyId p ≠ v
  | .unknownQoS v => 2 < v.toNat
  | .utf8Error => BadText body
  | .unsupportedProtocolVersion => k = .connect ∧ ∃ v, [0, 4, 77, 81, 84, 84, v] <+: body ∧ (v = 3 ∨ v = 4)
  | .unknownProtocolVersion => k = .connect ∧ ∃ v, [0, 4, 77, 81, 84, 84, v] <+: body ∧ v ≠ 3 ∧ v ≠ 4 ∧ v ≠ 5
  | .insufficientDataForProtocolVersion => k = .connect ∧ body = [0, 4, 77, 81, 84, 84]
  | .malformedPacket => True
  | .malformedPacketWithInfo => True

/-- a byte that is no reason code of the packet, although there should be one, is called an unknown property -/
def CodeSlip (k : PacketType) (body : Bytes) : DeErr → Prop
  | .unknownProperty v => v ∈ body ∧ v ∉ reasonCodes k ∧ reasonCodes k ≠ []
  | _ => False

/-- a SUBACK with a reason string is said not to be allowed to carry one; the error names the packet `k'` -/
def SubAckSlip (k' k : PacketType) (body : Bytes) : DeErr → Prop
  | .unexpectedProperty p k'' => k'' = k' ∧ k = .subAck ∧ p = .reasonString ∧ ∃ items, Follows body items (propertyId p)
  | _ => False

/-- a repeated property is reported under the name of another one -/
def NameSlip (k : PacketType) (n : Nat) (body : Bytes) (real named : PropertyType) (e : DeErr) : Prop :=
  e = .duplicateProperty named ∧ Justified k n body (.duplicateProperty real)

/-- the untrue errors of the decoder that works on a buffer -/
def BufferSlip (k : PacketType) (n : Nat) (body : Bytes) (e : DeErr) : Prop :=
  CodeSlip k body e ∨ SubAckSlip .subAck k body e ∨
  (k = .auth ∧ NameSlip k n body .reasonString .sessionExpiryInterval e) ∨
  (k = .unsubAck ∧ NameSlip k n body .reasonString .subscriptionIdentifier e) ∨
  (k = .connect ∧ e = .duplicateProperty .payloadFormatIndicator ∧
    ∃ items, Follows body items (propertyId .payloadFormatIndicator))

/-- the untrue errors of the decoder that works on a stream: all it has to say about a property that does not belong to the
packet is said about PUBREL -/
def StreamSlip (k : PacketType) (n : Nat) (body : Bytes) (e : DeErr) : Prop :=
  CodeSlip k body e ∨ SubAckSlip .pubRel k body e ∨
  (∃ p, e = .unexpectedProperty p .pubRel ∧ Justified k n body (.unexpectedProperty p k)) ∨
  NameSlip k n body .topicAlias .messageExpiryInterval e ∨ NameSlip k n body .maximumPacketSize .retainAvailable e

/-- the header: `e` says that the first byte `v` begins no packet, or that the length does not end -/
def HeaderBlame (v : UInt8) (rest : Bytes) (e : DeErr) : Prop :=
  (e = .unknownFixedHeader v ∧ ∀ t, ¬ FirstByteAllowed t v) ∨
  (e = .malformedPacket ∧ (∃ t, FirstByteAllowed t v) ∧ 4 ≤ rest.length ∧ ∀ b ∈ rest.take 4, more b)

end Spec
