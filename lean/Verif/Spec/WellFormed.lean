import Verif.Model.Packet
/-!
# Well-formed packets

`WF p`: the Rust type of the packet can hold `p` (only the fields and reason codes its type has) and
`p` can be expressed in MQTT v5 (strings and binary values of at most 65,535 bytes, subscription
identifiers that fit a variable byte integer, a packet identifier exactly with QoS 1 and 2, at
least one topic in SUBSCRIBE and UNSUBSCRIBE, authentication data only with an authentication
method).
-/

namespace Spec
open Mqrstt

/-- the value can be expressed on the wire -/
def ValueOk : (k : Kind) → k.T → Prop
  | .str, v => v.bytes.length ≤ 65535
  | .bin, v => v.length ≤ 65535
  | .var, v => v.toNat ≤ 268435455
  | _, _ => True

def StrOk (s : Str) : Prop := s.bytes.length ≤ 65535

/-- properties that a packet with the property list `es` can hold and MQTT can express -/
structure PropsWF (es : List Entry) (P : Props) : Prop where
  /-- only listed single-valued properties are present (guaranteed by the Rust types) -/
  listed : ∀ p, P.val p ≠ none → .single p ∈ es
  /-- subscription identifier lists only where the packet has them (guaranteed by the types) -/
  listedIds : P.subIds ≠ [] → .subIdList ∈ es
  /-- user properties only where the packet has them (guaranteed by the types) -/
  listedUsers : P.users ≠ [] → .user ∈ es
  values : ∀ p v, P.val p = some v → ValueOk p.kind v
  ids : ∀ i ∈ P.subIds, i.toNat ≤ 268435455
  users : ∀ u ∈ P.users, StrOk u.1 ∧ StrOk u.2
  /-- MQTT v5, 3.1.2.11.10: no authentication data without an authentication method -/
  auth : P.val .authenticationData ≠ none → P.val .authenticationMethod ≠ none

/-- authentication data, if present, is not the empty byte string -/
def AuthDataNonempty (P : Props) : Prop := P.val .authenticationData ≠ some []

def AckWF (codes : List Reason) (a : Ack) : Prop := a.reason ∈ codes ∧ PropsWF ackEntries a.props

def CodesAckWF (codes : List Reason) (es : List Entry) (a : CodesAck) : Prop :=
  (∀ r ∈ a.codes, r ∈ codes) ∧ PropsWF es a.props

def WillWF (w : LastWill) : Prop :=
  PropsWF willEntries w.props ∧ StrOk w.topic ∧ w.payload.length ≤ 65535

/-- well-formed packets -/
def WF : Packet → Prop
  | .connect c => PropsWF connectEntries c.props ∧ StrOk c.clientId ∧
      (∀ w, c.lastWill = some w → WillWF w) ∧ (∀ s, c.username = some s → StrOk s) ∧
      (∀ s, c.password = some s → StrOk s)
  | .connAck c => c.reason ∈ Reason.connAck ∧ PropsWF connAckEntries c.props
  | .publish p => StrOk p.topic ∧ (p.pkid.isSome ↔ p.qos ≠ .atMostOnce) ∧
      PropsWF publishEntries p.props
  | .pubAck a => AckWF Reason.pubAck a
  | .pubRec a => AckWF Reason.pubRec a
  | .pubRel a => AckWF Reason.pubRel a
  | .pubComp a => AckWF Reason.pubComp a
  | .subscribe s => PropsWF subscribeEntries s.props ∧ s.topics ≠ [] ∧
      ∀ t ∈ s.topics, StrOk t.1
  | .subAck a => CodesAckWF Reason.subAck subscribeEntries a
  | .unsubscribe s => PropsWF unsubscribeEntries s.props ∧ s.topics ≠ [] ∧ ∀ t ∈ s.topics, StrOk t
  | .unsubAck a => CodesAckWF Reason.unsubAck ackEntries a
  | .pingReq => True
  | .pingResp => True
  | .disconnect d => d.reason ∈ Reason.disconnect ∧ PropsWF disconnectEntries d.props
  | .auth a => a.reason ∈ Reason.auth ∧ PropsWF authEntries a.props

end Spec
