import Verif.Spec.PropSection
import Verif.Spec.Codes
import Verif.Spec.Options
/-!
# MQTT v5 packets on the wire

What each control packet looks like as bytes, written from chapters 2 and 3 of the standard: first byte, body length,
fields in order, property section, payload, and the short forms in which trailing fields may be left out. The relation
`PacketSays p bs` does not say in which order properties come, and it allows every form the standard allows.
-/

namespace Spec
open Mqrstt

/-- `len` is the number `n` as a variable byte integer, in as few bytes as possible (1.5.5) -/
def LenBytes (n : Nat) (len : Bytes) : Prop :=
  IsVbi len ∧ vbiValue len = n ∧ ∀ other, IsVbi other → vbiValue other = n → len.length ≤ other.length

/-- a property section that says exactly `P` (2.2.2): length, then properties that may occur here, each once unless it may be
repeated, no authentication data without a method (3.1.2.11.10) -/
def SectionSays (s : Section) (P : Props) (bs : Bytes) : Prop :=
  ∃ len body items, bs = len ++ body ∧ LenBytes body.length len ∧ ItemsBytes items body ∧
    (∀ i ∈ items, s ∈ carriers i.type) ∧ AtMostOnce s items ∧ Decoded s items P ∧
    (∀ p, repeatable s p = true → P.val p = none) ∧
    (P.val .authenticationData ≠ none → P.val .authenticationMethod ≠ none)

/-- there are no properties -/
def NoProps (P : Props) : Prop := (∀ p, P.val p = none) ∧ P.subIds = [] ∧ P.users = []

/-- the number of a reason code (2.4) -/
def reasonNumber : Reason → UInt8
  | .success | .normalDisconnection | .grantedQoS0 => 0x00
  | .grantedQoS1 => 0x01 | .grantedQoS2 => 0x02 | .disconnectWithWillMessage => 0x04
  | .noMatchingSubscribers => 0x10 | .noSubscriptionExisted => 0x11
  | .continueAuthentication => 0x18 | .reAuthenticate => 0x19
  | .unspecifiedError => 0x80 | .malformedPacket => 0x81 | .protocolError => 0x82
  | .implementationSpecificError => 0x83 | .unsupportedProtocolVersion => 0x84
  | .clientIdentifierNotValid => 0x85 | .badUsernameOrPassword => 0x86 | .notAuthorized => 0x87
  | .serverUnavailable => 0x88 | .serverBusy => 0x89 | .banned => 0x8A | .serverShuttingDown => 0x8B
  | .badAuthenticationMethod => 0x8C | .keepAliveTimeout => 0x8D | .sessionTakenOver => 0x8E
  | .topicFilterInvalid => 0x8F | .topicNameInvalid => 0x90 | .packetIdentifierInUse => 0x91
  | .packetIdentifierNotFound => 0x92 | .receiveMaximumExceeded => 0x93 | .topicAliasInvalid => 0x94
  | .packetTooLarge => 0x95 | .messageRateTooHigh => 0x96 | .quotaExceeded => 0x97
  | .administrativeAction => 0x98 | .payloadFormatInvalid => 0x99 | .retainNotSupported => 0x9A
  | .qosNotSupported => 0x9B | .useAnotherServer => 0x9C | .serverMoved => 0x9D
  | .sharedSubscriptionsNotSupported => 0x9E | .connectionRateExceeded => 0x9F
  | .maximumConnectTime => 0xA0 | .subscriptionIdentifiersNotSupported => 0xA1
  | .wildcardSubscriptionsNotSupported => 0xA2

/-- `r` is a reason code of packets of type `t`. Code 0 has a name of its own in DISCONNECT and SUBACK. -/
def IsCode (t : PacketType) (r : Reason) : Prop :=
  reasonNumber r ∈ reasonCodes t ∧ (reasonNumber r = 0 →
    r = match t with | .disconnect => .normalDisconnection | .subAck => .grantedQoS0 | _ => .success)

/-- a two-byte integer -/
def U16Says (v : UInt16) (bs : Bytes) : Prop := ValueBytes .u16 v bs
/-- a string with its length -/
def StrSays (s : Str) (bs : Bytes) : Prop := ValueBytes .str s bs
/-- binary data with its length -/
def BinSays (b bs : Bytes) : Prop := ValueBytes .bin b bs

/-- a field that is there or not -/
def OptSays {α : Type} (says : α → Bytes → Prop) : Option α → Bytes → Prop
  | some a, bs => says a bs
  | none, bs => bs = []

/-- items one after the other -/
inductive ListSays {α : Type} (says : α → Bytes → Prop) : List α → Bytes → Prop
  | nil : ListSays says [] []
  | cons {a as b bs} (h : says a b) (hs : ListSays says as bs) : ListSays says (a :: as) (b ++ bs)

/-- the will in the payload of CONNECT (3.1.3.2-3.1.3.4): properties, topic, payload -/
def WillSays (w : LastWill) (bs : Bytes) : Prop :=
  ∃ sec topic payload, bs = sec ++ topic ++ payload ∧ SectionSays .will w.props sec ∧ StrSays w.topic topic ∧
    BinSays w.payload payload

/-- a topic filter and its options byte (3.8.3) -/
def FilterSays (t : Str × SubOptions) (bs : Bytes) : Prop :=
  ∃ topic o, bs = topic ++ [o] ∧ StrSays t.1 topic ∧ o.toNat = subOptionsByte t.2

/-- reason code, then properties; trailing parts may be left out: no reason code stands for `dflt`, no properties for
none -/
def ReasonSays (t : PacketType) (s : Section) (dflt r : Reason) (P : Props) (bs : Bytes) : Prop :=
  (bs = [] ∧ r = dflt ∧ NoProps P) ∨
  (IsCode t r ∧ bs = [reasonNumber r] ∧ NoProps P) ∨
  (IsCode t r ∧ ∃ sec, bs = reasonNumber r :: sec ∧ SectionSays s P sec)

/-- PUBACK, PUBREC, PUBREL, PUBCOMP (3.4.2, 3.5.2, 3.6.2, 3.7.2) -/
def AckSays (t : PacketType) (s : Section) (a : Ack) (bs : Bytes) : Prop :=
  ∃ id tail, bs = id ++ tail ∧ U16Says a.id id ∧ ReasonSays t s .success a.reason a.props tail

/-- SUBACK and UNSUBACK (3.9, 3.11): identifier, properties, reason codes -/
def CodesSay (t : PacketType) (s : Section) (a : CodesAck) (bs : Bytes) : Prop :=
  ∃ id sec, bs = id ++ sec ++ a.codes.map reasonNumber ∧ U16Says a.id id ∧ SectionSays s a.props sec ∧
    ∀ r ∈ a.codes, IsCode t r

/-- variable header and payload -/
def BodySays : Packet → Bytes → Prop
  | .connect c, bs => ∃ flags keepAlive sec clientId will user pass,
      bs = [0, 4, 0x4D, 0x51, 0x54, 0x54, 5, flags] ++ keepAlive ++ sec ++ clientId ++ will ++ user ++ pass ∧
      flags.toNat = connectFlagsByte c ∧ U16Says c.keepAlive keepAlive ∧ SectionSays .connect c.props sec ∧
      StrSays c.clientId clientId ∧ OptSays WillSays c.lastWill will ∧ OptSays StrSays c.username user ∧
      OptSays StrSays c.password pass
  | .connAck c, bs => ∃ flags sec, bs = flags :: reasonNumber c.reason :: sec ∧
      flags.toNat = bitAt 0 c.sessionPresent ∧ IsCode .connAck c.reason ∧ SectionSays .connAck c.props sec
  | .publish p, bs => ∃ topic id sec, bs = topic ++ id ++ sec ++ p.payload ∧ StrSays p.topic topic ∧
      OptSays U16Says p.pkid id ∧ (p.pkid.isSome ↔ p.qos ≠ .atMostOnce) ∧ SectionSays .publish p.props sec
  | .pubAck a, bs => AckSays .pubAck .pubAck a bs
  | .pubRec a, bs => AckSays .pubRec .pubRec a bs
  | .pubRel a, bs => AckSays .pubRel .pubRel a bs
  | .pubComp a, bs => AckSays .pubComp .pubComp a bs
  | .subscribe s, bs => ∃ id sec topics, bs = id ++ sec ++ topics ∧ U16Says s.id id ∧
      SectionSays .subscribe s.props sec ∧ s.topics ≠ [] ∧ ListSays FilterSays s.topics topics
  | .subAck a, bs => CodesSay .subAck .subAck a bs
  | .unsubscribe s, bs => ∃ id sec topics, bs = id ++ sec ++ topics ∧ U16Says s.id id ∧
      SectionSays .unsubscribe s.props sec ∧ s.topics ≠ [] ∧ ListSays StrSays s.topics topics
  | .unsubAck a, bs => CodesSay .unsubAck .unsubAck a bs
  | .pingReq, bs => bs = []
  | .pingResp, bs => bs = []
  | .disconnect d, bs => ReasonSays .disconnect .disconnect .normalDisconnection d.reason d.props bs
  | .auth a, bs => (bs = [] ∧ a.reason = .success ∧ NoProps a.props) ∨
      (IsCode .auth a.reason ∧ ∃ sec, bs = reasonNumber a.reason :: sec ∧ SectionSays .auth a.props sec)

/-- the low four bits of the first byte (2.1.3, 3.3.1) -/
def flagBits : Packet → Nat
  | .publish p => publishFlags p.dup p.qos p.retain
  | .pubRel _ | .subscribe _ | .unsubscribe _ => 2
  | _ => 0

/-- the packet `p` on the wire -/
def PacketSays (p : Packet) (bs : Bytes) : Prop :=
  ∃ first len body, bs = first :: (len ++ body) ∧ first.toNat = 16 * typeNumber p.type + flagBits p ∧
    LenBytes body.length len ∧ BodySays p body

end Spec
