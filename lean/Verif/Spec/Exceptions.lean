import Verif.Spec.WellFormed
/-!
# Packets for which the codecs fall short

Named classes of well-formed packets which a property about the codecs has to leave out because the
code does not handle them; each class is shown to be mishandled by a `_violated` theorem.
-/

namespace Spec
open Mqrstt

/-- all property sets of a packet -/
def propSets : Packet → List Props
  | .connect c => c.props :: (match c.lastWill with | some w => [w.props] | none => [])
  | .connAck c => [c.props]
  | .publish p => [p.props]
  | .pubAck a | .pubRec a | .pubRel a | .pubComp a => [a.props]
  | .subscribe s => [s.props]
  | .subAck a => [a.props]
  | .unsubscribe s => [s.props]
  | .unsubAck a => [a.props]
  | .pingReq | .pingResp => []
  | .disconnect d => [d.props]
  | .auth a => [a.props]

/-- authentication data present, but the empty byte string -/
def EmptyAuthData (p : Packet) : Prop := ∃ P ∈ propSets p, P.val .authenticationData = some []

/-- an assigned client identifier (CONNACK only) -/
def HasAssignedId (p : Packet) : Prop := ∃ P ∈ propSets p, P.val .assignedClientIdentifier ≠ none

/-- a server reference (CONNACK and DISCONNECT only) -/
def HasServerRef (p : Packet) : Prop := ∃ P ∈ propSets p, P.val .serverReference ≠ none

/-- CONNECT with a last will that has a payload format indicator -/
def WillWithFormat : Packet → Prop
  | .connect c => ∃ w, c.lastWill = some w ∧ w.props.val .payloadFormatIndicator ≠ none
  | _ => False

/-- PUBREC or PUBCOMP with a reason code other than Success and no properties -/
def ShortAck : Packet → Prop
  | .pubRec a | .pubComp a => a.reason ≠ .success ∧ a.props = .empty
  | _ => False

/-- SUBSCRIBE with a number of topics other than one -/
def ManyTopics : Packet → Prop
  | .subscribe s => s.topics.length ≠ 1
  | _ => False

/-- a SUBACK with a subscription identifier, which MQTT does not have -/
def ForeignSubId : Packet → Prop
  | .subAck a => a.props.val .subscriptionIdentifier ≠ none
  | _ => False

/-- a SUBACK with a reason string -/
def SubAckReason : Packet → Prop
  | .subAck a => a.props.val .reasonString ≠ none
  | _ => False

end Spec
