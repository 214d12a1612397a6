import Verif.Model.ErrorText
import Verif.Spec.Shown
import Verif.Spec.Codes
import Verif.Spec.PropSection
import Verif.Spec.Wire
/-!
# What the text of an error mentions (C114)
-/

namespace Mqrstt.Spec
open Mqrstt

/-- the names of the packet types, table 2-1 -/
def packetTitle : Nat → String
  | 1 => "CONNECT" | 2 => "CONNACK" | 3 => "PUBLISH" | 4 => "PUBACK" | 5 => "PUBREC" | 6 => "PUBREL" | 7 => "PUBCOMP"
  | 8 => "SUBSCRIBE" | 9 => "SUBACK" | 10 => "UNSUBSCRIBE" | 11 => "UNSUBACK" | 12 => "PINGREQ" | 13 => "PINGRESP"
  | 14 => "DISCONNECT" | 15 => "AUTH" | _ => ""

/-- the names of the properties, table 2-4 -/
def propertyTitle : UInt8 → String
  | 1 => "Payload Format Indicator" | 2 => "Message Expiry Interval" | 3 => "Content Type"
  | 8 => "Response Topic" | 9 => "Correlation Data" | 11 => "Subscription Identifier"
  | 17 => "Session Expiry Interval" | 18 => "Assigned Client Identifier" | 19 => "Server Keep Alive"
  | 21 => "Authentication Method" | 22 => "Authentication Data" | 23 => "Request Problem Information"
  | 24 => "Will Delay Interval" | 25 => "Request Response Information" | 26 => "Response Information"
  | 28 => "Server Reference" | 31 => "Reason String" | 33 => "Receive Maximum"
  | 34 => "Topic Alias Maximum" | 35 => "Topic Alias" | 36 => "Maximum QoS" | 37 => "Retain Available"
  | 38 => "User Property" | 39 => "Maximum Packet Size" | 40 => "Wildcard Subscription Available"
  | 41 => "Subscription Identifier Available" | 42 => "Shared Subscription Available" | _ => ""

/-- a number in binary digits -/
def Binary (bs : Bytes) (n : Nat) : Prop :=
  bs ≠ [] ∧ (∀ b ∈ bs, b.toNat = 48 ∨ b.toNat = 49) ∧ bs.foldl (fun n b => 2 * n + (b.toNat - 48)) 0 = n

/-- something that a text can mention -/
inductive Part where
  | number (n : Nat)
  | binary (n : Nat)
  | packet (t : PacketType)
  | property (p : PropertyType)
  /-- the reason code of a CONNACK -/
  | reason (r : Reason)
  /-- a text that comes from elsewhere -/
  | other (bs : Bytes)

/-- the piece of text stands for this -/
def StandsFor (bs : Bytes) : Part → Prop
  | .number n => Decimal bs n
  | .binary n => Binary bs n
  | .packet t => letters bs = letters (text (packetTitle (_root_.Spec.typeNumber t)))
  | .property p => letters bs = letters (text (propertyTitle (_root_.Spec.propertyId p)))
  | .reason r => _root_.Spec.IsCode .connAck r → Names bs .connAck r
  | .other x => bs = x

def isDigitByte (b : UInt8) : Bool := decide (48 ≤ b ∧ b ≤ 57)

/-- the text mentions these things in this order; no digits stand directly before or behind -/
inductive Mentions : Bytes → List Part → Prop
  | nil (bs : Bytes) : Mentions bs []
  | cons {before bs behind : Bytes} {p : Part} {ps : List Part} (hb : before.getLast?.any isDigitByte = false)
      (hs : StandsFor bs p) (ha : behind.head?.any isDigitByte = false) (h : Mentions behind ps) :
      Mentions (before ++ (bs ++ behind)) (p :: ps)

/-- what there is to say about a decoding error; `info`: its part that the model leaves out -/
def deParts (info : Bytes) : DeErr → List Part
  | .malformedPacketWithInfo => [.other info]
  | .unknownFixedHeader b => [.binary b.toNat]
  | .insufficientData available needed => [.other info, .number available, .number needed]
  | .remainingDataError read remainingLength => [.number read, .number remainingLength]
  | .duplicateProperty p => [.property p]
  | .unexpectedProperty p k => [.property p, .packet k]
  | .unknownProperty b => [.number b.toNat]
  | .unknownQoS b => [.number b.toNat]
  | .utf8Error => [.other info]
  | _ => []

/-- what there is to say about an error of the session -/
def sessionParts : HErr → List Part
  | .missingPacketId => []
  | .packetIdChannelError id => [.number id.toNat]
  | .packetIdCollision id => [.number id.toNat]
  | .unsolicited id t => [.number id.toNat, .packet t]
  | .unexpectedPacket t => [.packet t]

/-- what there is to say about an error of `run` or `connect` -/
def connParts (info : Bytes) : ConnErr → List Part
  | .deserialization e => deParts info e
  | .serialization (.variableIntegerOverflow n) => [.number n]
  | .io => [.other info]
  | .refused r => [.reason r]
  | .notConnAck _ => [.other info]
  | .handler e => sessionParts e
  | _ => []

/-- what there is to say about an error of a call -/
def clientParts : ClientErr → List Part
  | .validation (.maxPacketSize n) => [.number n]
  | .validation (.topicSize n) => [.number n]
  | .noNetworkChannel => []

end Mqrstt.Spec
