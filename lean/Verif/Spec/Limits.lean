import Verif.Spec.Sender
/-!
# What a server announces that it will take

Written from MQTT v5, 3.2.2.3 (the properties of CONNACK), 4.9 (flow control) and 3.3.2.3.4 (topic aliases). All of it is a
function of what is observed of the client.
-/

namespace Mqrstt.Spec

/-! ## receive maximum -/

/-- receive maximum of the server: 65535 if CONNACK names none (3.2.2.3.3) -/
def receiveMaximumOf (c : ConnAck) : Nat :=
  match (c.props.val .receiveMaximum : Option UInt16) with
  | some n => n.toNat
  | none => 65535

/-- the send quota of 4.9, as the publishes that may be unfinished on this connection and those that are -/
structure Quota where
  max : Nat
  used : Nat

namespace Quota

def start : Quota := ⟨65535, 0⟩

/-- 4.9: a PUBLISH of QoS 1 or 2 takes from the quota; PUBACK, PUBCOMP and a refusing PUBREC give back; a new connection
starts anew -/
def next (q : Quota) : Obs → Quota
  | .wrote (.publish p) _ _ => if p.qos = .atMostOnce then q else { q with used := q.used + 1 }
  | .read (.connAck c) => ⟨receiveMaximumOf c, 0⟩
  | .read (.pubAck _) => { q with used := q.used - 1 }
  | .read (.pubComp _) => { q with used := q.used - 1 }
  | .read (.pubRec a) => if Ledger.accepts a then q else { q with used := q.used - 1 }
  | _ => q

end Quota

/-- the quota after everything observed -/
def quota (tr : List Obs) : Quota := tr.foldl Quota.next Quota.start

/-! ## what the last CONNACK says -/

/-- the CONNACK read last -/
def lastConnAck (tr : List Obs) : Option ConnAck :=
  tr.foldl (fun c x => match x with | .read (.connAck c') => some c' | _ => c) none

/-- maximum packet size of the server, if it has one (3.2.2.3.6) -/
def maximumPacketSizeOf (c : ConnAck) : Option Nat := ((c.props.val .maximumPacketSize : Option UInt32)).map (·.toNat)

/-- a topic filter with a wildcard -/
def HasWildcard (s : Str) : Prop := 0x23 ∈ s.bytes ∨ 0x2B ∈ s.bytes

/-- a topic filter that begins with `$share/` (4.8.2) -/
def IsShared (s : Str) : Prop := [0x24, 0x73, 0x68, 0x61, 0x72, 0x65, 0x2F] <+: s.bytes

/-- 3.2.2.3.4: the QoS is supported -/
def QosSupported (c : ConnAck) (q : QoS) : Prop :=
  match (c.props.val .maximumQos : Option QoS) with
  | some .atMostOnce => q = .atMostOnce
  | some .atLeastOnce => q ≠ .exactlyOnce
  | _ => True

/-- the server supports what this packet needs: QoS, retained messages and topic aliases (3.2.2.3.4, 3.2.2.3.5,
3.2.2.3.8), subscriptions with wildcards or identifiers and shared ones (3.2.2.3.11 to 3.2.2.3.13) -/
def Supported (c : ConnAck) : Packet → Prop
  | .publish p =>
    QosSupported c p.qos ∧ (p.retain = true → c.props.val .retainAvailable ≠ some false) ∧
    (∀ n : UInt16, p.props.val .topicAlias = some n →
      n.toNat ≤ (((c.props.val .topicAliasMaximum : Option UInt16)).getD 0).toNat)
  | .subscribe s =>
    (∀ t ∈ s.topics, HasWildcard t.1 → c.props.val .wildcardSubscriptionAvailable ≠ some false) ∧
    (∀ t ∈ s.topics, IsShared t.1 → c.props.val .sharedSubscriptionAvailable ≠ some false) ∧
    (s.props.val .subscriptionIdentifier ≠ none → c.props.val .subscriptionIdentifierAvailable ≠ some false)
  | _ => True

/-! ## topic aliases -/

/-- the topic aliases that the server knows: those which a PUBLISH with a topic has set on this connection (3.3.2.3.4: "Topic
Alias mappings exist only within a Network Connection") -/
def aliases (tr : List Obs) : List UInt16 :=
  tr.foldl (fun known x => match x with
    | .wrote (.publish p) _ _ =>
      match (p.props.val .topicAlias : Option UInt16) with
      | some n => if p.topic.bytes = [] then known else n :: known
      | none => known
    | .wrote (.connect _) _ _ => []
    | _ => known) []

/-- the server can tell the topic of this message -/
def TopicKnown (known : List UInt16) (p : Publish) : Prop :=
  p.topic.bytes ≠ [] ∨ ∃ n : UInt16, p.props.val .topicAlias = some n ∧ n ∈ known

end Mqrstt.Spec
