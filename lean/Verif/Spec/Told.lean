import Verif.Spec.Sender
/-!
# Topics of messages from the server

MQTT v5 lets a server leave out the topic of a message and send a topic alias in its place, but only as far as the client
has said that it knows about aliases (3.1.2.11.5, 3.3.2.3.4).
-/

namespace Mqrstt.Spec

/-- the topic alias maximum in the CONNECT written last; 0 if there is none -/
def announcedAliases (tr : List Obs) : Nat :=
  tr.foldl (fun n x => match x with
    | .wrote (.connect c) _ _ => ((c.props.val .topicAliasMaximum : Option UInt16).getD 0).toNat
    | _ => n) 0

/-- the aliases that the server has set on this connection, newest first -/
def serverAliases (tr : List Obs) : List (UInt16 × Str) :=
  tr.foldl (fun known x => match x with
    | .read (.publish p) =>
      match (p.props.val .topicAlias : Option UInt16) with
      | some n => if p.topic.bytes = [] then known else (n, p.topic) :: known
      | none => known
    | .wrote (.connect _) _ _ => []
    | _ => known) []

/-- a message that the server may send when `pre` was observed: an alias is within what the client has announced, and
there is a topic or an alias that stands for one -/
def LegalTopic (pre : List Obs) (p : Publish) : Prop :=
  (∀ n : UInt16, p.props.val .topicAlias = some n → n ≠ 0 ∧ n.toNat ≤ announcedAliases pre) ∧
  (p.topic.bytes = [] → ∃ (n : UInt16) (t : Str), p.props.val .topicAlias = some n ∧ (n, t) ∈ serverAliases pre)

/-- the topic of a message from the server -/
inductive Meant (pre : List Obs) (p : Publish) : Str → Prop where
  | named (h : p.topic.bytes ≠ []) : Meant pre p p.topic
  | known {n : UInt16} {t : Str} (h : p.topic.bytes = []) (ha : p.props.val .topicAlias = some n)
      (hk : (serverAliases pre).lookup n = some t) : Meant pre p t

/-- the PUBLISH packets of QoS 0 among these -/
def qos0 (ps : List Packet) : List Packet := ps.filter fun | .publish p => p.qos = .atMostOnce | _ => false

end Mqrstt.Spec
