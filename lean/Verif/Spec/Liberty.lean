import Verif.Spec.Wire
/-!
# MQTT v5 packets on the wire, with liberties

`PacketSays` of `Spec/Wire.lean` once more, except that a reader may take liberties: each `Liberty` names one respect in
which a sender may deviate from the standard without being refused. With no liberty taken the relation is `PacketSays`
itself (`C105_no_liberty`).
-/

namespace Spec
open Mqrstt

/-- in what a reader may be more liberal than the standard -/
inductive Liberty where
  /-- a length is written in more bytes than needed (1.5.5) -/
  | longLength
  /-- something follows the last field inside the packet -/
  | trailing
  /-- reserved bits are set; without a will, this includes the will QoS and will retain bits (3.1.2.3, 3.2.2.1, 3.8.3.1) -/
  | reserved
  /-- authentication data without authentication method (3.1.2.11.10) -/
  | loneAuthData
  /-- a subscription identifier in SUBACK (3.9.2.1) -/
  | foreignSubId
  /-- a repeated subscription identifier in SUBSCRIBE (3.8.2.1.2); the last one counts -/
  | repeatedSubId
  /-- the properties of PUBACK, PUBREC, PUBREL or PUBCOMP are longer than announced (2.2.2.1) -/
  | sectionLength
  /-- the packet is longer or shorter than announced (2.1.4) -/
  | bodyLength
  deriving DecidableEq

variable (L : Liberty → Prop)

/-- the number is written in as few bytes as possible -/
def LeastBytes (len : Bytes) : Prop :=
  ∀ other, IsVbi other → vbiValue other = vbiValue len → len.length ≤ other.length

/-- a sequence of properties that says exactly `P` -/
def ItemsSayBut (s : Section) (P : Props) (items : List WireItem) : Prop :=
  (∀ i ∈ items, s ∈ carriers i.type ∨ L .foreignSubId ∧ s = .subAck ∧ i.type = .subscriptionIdentifier) ∧
  (items.Pairwise fun i j => i.type = j.type → repeatable s i.type = true ∨
    L .repeatedSubId ∧ (s = .subscribe ∨ s = .subAck) ∧ i.type = .subscriptionIdentifier) ∧
  (∀ p, repeatable s p = false → ∀ v, P.val p = some v ↔
    ∃ pre post, items = pre ++ .value p v :: post ∧ ∀ i ∈ post, i.type ≠ p) ∧
  P.users = items.filterMap WireItem.user? ∧
  P.subIds = (if s = .publish then items.filterMap WireItem.subId? else []) ∧
  (∀ p, repeatable s p = true → P.val p = none) ∧
  (L .loneAuthData ∨ (P.val .authenticationData ≠ none → P.val .authenticationMethod ≠ none))

/-- a property section -/
def SectionSaysBut (s : Section) (P : Props) (bs : Bytes) : Prop :=
  ∃ len body items, bs = len ++ body ∧ IsVbi len ∧ vbiValue len = body.length ∧ (L .longLength ∨ LeastBytes len) ∧
    ItemsBytes items body ∧ ItemsSayBut L s P items

/-- the property section of a publish acknowledgement, which may be longer than announced: announced as empty, what follows is
ignored; otherwise the properties go on to the end of the packet -/
def AckSectionSaysBut (s : Section) (P : Props) (bs : Bytes) : Prop :=
  SectionSaysBut L s P bs ∨
  L .sectionLength ∧ ∃ len body, bs = len ++ body ∧ IsVbi len ∧ (L .longLength ∨ LeastBytes len) ∧
    vbiValue len < body.length ∧
    ((vbiValue len = 0 ∧ NoProps P) ∨ (vbiValue len ≠ 0 ∧ ∃ items, ItemsBytes items body ∧ ItemsSayBut L s P items))

/-- nothing, or what follows the last field -/
def TailBut (bs : Bytes) : Prop := L .trailing ∨ bs = []

/-- unused bits -/
def UnusedBut (n : Nat) : Prop := L .reserved ∨ n = 0

/-- the connect flags -/
def FlagsSayBut (c : Connect) (flags : UInt8) : Prop :=
  ∃ bit0 qos retain, bit0 ≤ 1 ∧ qos ≤ 2 ∧ retain ≤ 1 ∧ flags.toNat = connectFlagsByte c + (bit0 + 8 * qos + 32 * retain) ∧
    UnusedBut L (bit0 + 8 * qos + 32 * retain) ∧ (c.lastWill ≠ none → qos = 0 ∧ retain = 0)

/-- the will in the payload of CONNECT -/
def WillSaysBut (w : LastWill) (bs : Bytes) : Prop :=
  ∃ sec topic payload, bs = sec ++ topic ++ payload ∧ SectionSaysBut L .will w.props sec ∧ StrSays w.topic topic ∧
    BinSays w.payload payload

/-- a topic filter and its options byte -/
def FilterSaysBut (t : Str × SubOptions) (bs : Bytes) : Prop :=
  ∃ topic o unused, bs = topic ++ [o] ∧ StrSays t.1 topic ∧ o.toNat = subOptionsByte t.2 + 64 * unused ∧ UnusedBut L unused

/-- reason code, then properties; trailing parts may be left out -/
def ReasonSaysBut (t : PacketType) (sect : Bytes → Prop) (dflt r : Reason) (P : Props) (bs : Bytes) : Prop :=
  (bs = [] ∧ r = dflt ∧ NoProps P) ∨
  (IsCode t r ∧ bs = [reasonNumber r] ∧ NoProps P) ∨
  (IsCode t r ∧ ∃ sec, bs = reasonNumber r :: sec ∧ sect sec)

/-- PUBACK, PUBREC, PUBREL, PUBCOMP -/
def AckSaysBut (t : PacketType) (s : Section) (a : Ack) (bs : Bytes) : Prop :=
  ∃ id tail, bs = id ++ tail ∧ U16Says a.id id ∧
    ReasonSaysBut t (AckSectionSaysBut L s a.props) .success a.reason a.props tail

/-- SUBACK and UNSUBACK -/
def CodesSayBut (t : PacketType) (s : Section) (a : CodesAck) (bs : Bytes) : Prop :=
  ∃ id sec, bs = id ++ sec ++ a.codes.map reasonNumber ∧ U16Says a.id id ∧ SectionSaysBut L s a.props sec ∧
    ∀ r ∈ a.codes, IsCode t r

/-- variable header and payload -/
def BodySaysBut : Packet → Bytes → Prop
  | .connect c, bs => ∃ flags keepAlive sec clientId will user pass tail,
      bs = [0, 4, 0x4D, 0x51, 0x54, 0x54, 5, flags] ++ keepAlive ++ sec ++ clientId ++ will ++ user ++ pass ++ tail ∧
      FlagsSayBut L c flags ∧ U16Says c.keepAlive keepAlive ∧ SectionSaysBut L .connect c.props sec ∧
      StrSays c.clientId clientId ∧ OptSays (WillSaysBut L) c.lastWill will ∧ OptSays StrSays c.username user ∧
      OptSays StrSays c.password pass ∧ TailBut L tail
  | .connAck c, bs => ∃ flags unused sec tail, bs = flags :: reasonNumber c.reason :: (sec ++ tail) ∧
      flags.toNat = bitAt 0 c.sessionPresent + 2 * unused ∧ UnusedBut L unused ∧ IsCode .connAck c.reason ∧
      SectionSaysBut L .connAck c.props sec ∧ TailBut L tail
  | .publish p, bs => ∃ topic id sec, bs = topic ++ id ++ sec ++ p.payload ∧ StrSays p.topic topic ∧
      OptSays U16Says p.pkid id ∧ (p.pkid.isSome ↔ p.qos ≠ .atMostOnce) ∧ SectionSaysBut L .publish p.props sec
  | .pubAck a, bs => AckSaysBut L .pubAck .pubAck a bs
  | .pubRec a, bs => AckSaysBut L .pubRec .pubRec a bs
  | .pubRel a, bs => AckSaysBut L .pubRel .pubRel a bs
  | .pubComp a, bs => AckSaysBut L .pubComp .pubComp a bs
  | .subscribe s, bs => ∃ id sec topics, bs = id ++ sec ++ topics ∧ U16Says s.id id ∧
      SectionSaysBut L .subscribe s.props sec ∧ s.topics ≠ [] ∧ ListSays (FilterSaysBut L) s.topics topics
  | .subAck a, bs => CodesSayBut L .subAck .subAck a bs
  | .unsubscribe s, bs => ∃ id sec topics, bs = id ++ sec ++ topics ∧ U16Says s.id id ∧
      SectionSaysBut L .unsubscribe s.props sec ∧ s.topics ≠ [] ∧ ListSays StrSays s.topics topics
  | .unsubAck a, bs => CodesSayBut L .unsubAck .unsubAck a bs
  | .pingReq, bs => TailBut L bs
  | .pingResp, bs => TailBut L bs
  | .disconnect d, bs => ReasonSaysBut .disconnect
      (fun bs => ∃ sec tail, bs = sec ++ tail ∧ SectionSaysBut L .disconnect d.props sec ∧ TailBut L tail)
      .normalDisconnection d.reason d.props bs
  | .auth a, bs => (bs = [] ∧ a.reason = .success ∧ NoProps a.props) ∨
      (IsCode .auth a.reason ∧ ∃ sec tail, bs = reasonNumber a.reason :: (sec ++ tail) ∧
        SectionSaysBut L .auth a.props sec ∧ TailBut L tail)

/-- the packet `p` on the wire, liberties taken -/
def PacketSaysBut (p : Packet) (bs : Bytes) : Prop :=
  ∃ first len body, bs = first :: (len ++ body) ∧ first.toNat = 16 * typeNumber p.type + flagBits p ∧
    IsVbi len ∧ (L .longLength ∨ LeastBytes len) ∧
    (vbiValue len = body.length ∨
      L .bodyLength ∧ p.type ≠ .publish ∧ p.type ≠ .pubComp ∧ p.type ≠ .subAck) ∧
    BodySaysBut L p body

/-- no liberty -/
def strictly : Liberty → Prop := fun _ => False

/-- what the buffered reader allows itself -/
def buffered : Liberty → Prop := fun l => l ≠ .repeatedSubId ∧ l ≠ .bodyLength

/-- what the streaming reader allows itself -/
def streaming : Liberty → Prop := fun l => l ≠ .trailing ∧ l ≠ .sectionLength

end Spec
