import Verif.Spec.WellFormed
import Verif.Model.System
/-!
# What a client may send

Written from MQTT v5 (1.5.4, 3.3, 3.8, 3.10, 4.7).
-/

namespace Spec
open Mqrstt

/-- a string without the null character (1.5.4) -/
def NoNull (s : Str) : Prop := 0 ∉ s.bytes

/-- a topic name: no null character, no wildcards `#` and `+` (3.3.2.1, 4.7.1) -/
def TopicName (s : Str) : Prop := NoNull s ∧ 0x23 ∉ s.bytes ∧ 0x2B ∉ s.bytes

/-- a topic filter: at least one character, no null character (4.7.3); the rules for the positions of wildcards are
left out -/
def TopicFilter (s : Str) : Prop := s.bytes ≠ [] ∧ NoNull s

/-- what must hold of the arguments beyond the lengths of topics and the size of the packet, which the client checks itself -/
def LegalRequest : Request → Prop
  | .publish topic _ _ _ props =>
    TopicName topic ∧ (topic.bytes = [] → props.val .topicAlias ≠ none) ∧ props.val .topicAlias ≠ some 0 ∧
      props.subIds = [] ∧ PropsWF publishEntries props
  | .subscribe topics props =>
    topics ≠ [] ∧ (∀ t ∈ topics, TopicFilter t.1) ∧ props.val .subscriptionIdentifier ≠ some 0 ∧
      PropsWF subscribeEntries props
  | .unsubscribe topics props =>
    topics ≠ [] ∧ (∀ t ∈ topics, TopicFilter t) ∧ PropsWF unsubscribeEntries props
  | .disconnect reason props => reason ∈ Reason.disconnect ∧ PropsWF disconnectEntries props

/-- a packet that a client may send on an established connection -/
def Legal : Packet → Prop
  | .publish p =>
    TopicName p.topic ∧ (p.topic.bytes = [] → p.props.val .topicAlias ≠ none) ∧ p.props.val .topicAlias ≠ some 0 ∧
      p.props.subIds = [] ∧ WF (.publish p)
  | .subscribe p =>
    (∀ t ∈ p.topics, TopicFilter t.1) ∧ p.props.val .subscriptionIdentifier ≠ some 0 ∧ WF (.subscribe p)
  | .unsubscribe p => (∀ t ∈ p.topics, TopicFilter t) ∧ WF (.unsubscribe p)
  | .pubAck a => WF (.pubAck a)
  | .pubRec a => WF (.pubRec a)
  | .pubRel a => WF (.pubRel a)
  | .pubComp a => WF (.pubComp a)
  | .pingReq => True
  | .disconnect d => WF (.disconnect d)
  | _ => False

/-- a CONNECT that a client may send (3.1): strings without null characters, the last will goes to a topic name, receive
maximum and maximum packet size are not zero, the size of the packet can be expressed -/
def LegalConnect (c : Connect) : Prop :=
  WF (.connect c) ∧ NoNull c.clientId ∧ (∀ s, c.username = some s → NoNull s) ∧
    (∀ w, c.lastWill = some w → TopicName w.topic ∧ w.topic.bytes ≠ []) ∧
    c.props.val .receiveMaximum ≠ some 0 ∧ c.props.val .maximumPacketSize ≠ some 0 ∧
    (Packet.connect c).bodyWireLen ≤ 268435455

/-- the packet identifier is not 0 (2.2.1) -/
def IdentNonzero : Packet → Prop
  | .publish p => p.pkid ≠ some 0
  | .pubAck a | .pubRec a | .pubRel a | .pubComp a => a.id ≠ 0
  | .subscribe s => s.id ≠ 0
  | .unsubscribe s => s.id ≠ 0
  | _ => True

end Spec
