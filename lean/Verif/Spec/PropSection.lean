import Verif.Model.Packet
import Verif.Spec.VarInt
/-!
# Property sections on the wire

MQTT v5, section 2.2.2: identifiers, value encodings and the packets that may carry each property
(table 2-4), and what it means that decoded properties are the ones on the wire.
-/

namespace Spec
open Mqrstt

/-- the places where a property section occurs -/
inductive Section where
  | connect | will | connAck | publish | pubAck | pubRec | pubRel | pubComp | subscribe | subAck
  | unsubscribe | unsubAck | disconnect | auth
  deriving DecidableEq

/-- the identifier of each property, table 2-4 -/
def propertyId : PropertyType → UInt8
  | .payloadFormatIndicator => 1 | .messageExpiryInterval => 2 | .contentType => 3
  | .responseTopic => 8 | .correlationData => 9 | .subscriptionIdentifier => 11
  | .sessionExpiryInterval => 17 | .assignedClientIdentifier => 18 | .serverKeepAlive => 19
  | .authenticationMethod => 21 | .authenticationData => 22 | .requestProblemInformation => 23
  | .willDelayInterval => 24 | .requestResponseInformation => 25 | .responseInformation => 26
  | .serverReference => 28 | .reasonString => 31 | .receiveMaximum => 33
  | .topicAliasMaximum => 34 | .topicAlias => 35 | .maximumQos => 36 | .retainAvailable => 37
  | .userProperty => 38 | .maximumPacketSize => 39 | .wildcardSubscriptionAvailable => 40
  | .subscriptionIdentifierAvailable => 41 | .sharedSubscriptionAvailable => 42

/-- which sections may carry a property, table 2-4 -/
def carriers : PropertyType → List Section
  | .payloadFormatIndicator => [.publish, .will]
  | .messageExpiryInterval => [.publish, .will]
  | .contentType => [.publish, .will]
  | .responseTopic => [.publish, .will]
  | .correlationData => [.publish, .will]
  | .subscriptionIdentifier => [.publish, .subscribe]
  | .sessionExpiryInterval => [.connect, .connAck, .disconnect]
  | .assignedClientIdentifier => [.connAck]
  | .serverKeepAlive => [.connAck]
  | .authenticationMethod => [.connect, .connAck, .auth]
  | .authenticationData => [.connect, .connAck, .auth]
  | .requestProblemInformation => [.connect]
  | .willDelayInterval => [.will]
  | .requestResponseInformation => [.connect]
  | .responseInformation => [.connAck]
  | .serverReference => [.connAck, .disconnect]
  | .reasonString => [.connAck, .pubAck, .pubRec, .pubRel, .pubComp, .subAck, .unsubAck,
      .disconnect, .auth]
  | .receiveMaximum => [.connect, .connAck]
  | .topicAliasMaximum => [.connect, .connAck]
  | .topicAlias => [.publish]
  | .maximumQos => [.connAck]
  | .retainAvailable => [.connAck]
  | .userProperty => [.connect, .will, .connAck, .publish, .pubAck, .pubRec, .pubRel, .pubComp,
      .subscribe, .subAck, .unsubscribe, .unsubAck, .disconnect, .auth]
  | .maximumPacketSize => [.connect, .connAck]
  | .wildcardSubscriptionAvailable => [.connAck]
  | .subscriptionIdentifierAvailable => [.connAck]
  | .sharedSubscriptionAvailable => [.connAck]

/-- may the property occur more than once in a section? (2.2.2.2, 3.3.2.3.8) -/
def repeatable : Section → PropertyType → Bool
  | _, .userProperty => true
  | .publish, .subscriptionIdentifier => true
  | _, _ => false

/-- `bs` encodes the value `v`: big-endian integers, a two-byte length before strings and binary
data, variable byte integers, one byte for flags and QoS -/
def ValueBytes : (k : Kind) → k.T → Bytes → Prop
  | .u8, v, bs => bs = [v]
  | .u16, v, bs => ∃ x y, bs = [x, y] ∧ v.toNat = 256 * x.toNat + y.toNat
  | .u32, v, bs => ∃ x y z u, bs = [x, y, z, u] ∧
      v.toNat = 16777216 * x.toNat + 65536 * y.toNat + 256 * z.toNat + u.toNat
  | .str, v, bs => ∃ x y, bs = x :: y :: v.bytes ∧ v.bytes.length = 256 * x.toNat + y.toNat
  | .bin, v, bs => ∃ x y, bs = x :: y :: v ∧ v.length = 256 * x.toNat + y.toNat
  | .var, v, bs => IsVbi bs ∧ vbiValue bs = v.toNat
  | .bool, v, bs => bs = [if v then 1 else 0]
  | .qos, v, bs => bs = [match v with | .atMostOnce => 0 | .atLeastOnce => 1 | .exactlyOnce => 2]

/-- one property on the wire -/
inductive WireItem where
  | value (p : PropertyType) (v : p.kind.T)
  | user (key value : Str)

def WireItem.type : WireItem → PropertyType
  | .value p _ => p
  | .user _ _ => .userProperty

/-- identifier byte and value -/
def WireItem.Bytes : WireItem → List UInt8 → Prop
  | .value p v, bs => p ≠ .userProperty ∧ ∃ vs, bs = propertyId p :: vs ∧ ValueBytes p.kind v vs
  | .user k v, bs => ∃ ks vs, bs = propertyId .userProperty :: (ks ++ vs) ∧
      ValueBytes .str k ks ∧ ValueBytes .str v vs

/-- a sequence of properties -/
inductive ItemsBytes : List WireItem → List UInt8 → Prop
  | nil : ItemsBytes [] []
  | cons {i is bs cs} (h : i.Bytes bs) (hs : ItemsBytes is cs) : ItemsBytes (i :: is) (bs ++ cs)

/-- no property occurs twice, except the repeatable ones -/
def AtMostOnce (s : Section) (items : List WireItem) : Prop :=
  items.Pairwise fun i j => i.type = j.type → repeatable s i.type = true

/-- a user property -/
def WireItem.user? : WireItem → Option (Str × Str)
  | .user k v => some (k, v)
  | _ => none

/-- a subscription identifier -/
def WireItem.subId? : WireItem → Option UInt32
  | .value .subscriptionIdentifier v => some v
  | _ => none

/-- the decoded properties are the ones on the wire: user properties and the subscription
identifiers of a PUBLISH in order -/
structure Decoded (s : Section) (items : List WireItem) (P : Props) : Prop where
  single : ∀ p, repeatable s p = false → ∀ v, P.val p = some v ↔ .value p v ∈ items
  users : P.users = items.filterMap WireItem.user?
  subIds : P.subIds = if s = .publish then items.filterMap WireItem.subId? else []

/-- `bs` is a property section with the given properties: the length, then the properties -/
def IsSection (items : List WireItem) (bs : List UInt8) : Prop :=
  ∃ len body, bs = len ++ body ∧ IsVbi len ∧ vbiValue len = body.length ∧ ItemsBytes items body

/-- after the properties `pre`, the identifier byte `x` must not come: it is no identifier, or the
property does not belong here, or it must not be repeated -/
def BadNext (s : Section) (pre : List WireItem) (x : UInt8) : Prop :=
  (∀ p, propertyId p ≠ x) ∨ (∃ p, propertyId p = x ∧ s ∉ carriers p) ∨
  (∃ p, propertyId p = x ∧ repeatable s p = false ∧ ∃ i ∈ pre, i.type = p)

end Spec
