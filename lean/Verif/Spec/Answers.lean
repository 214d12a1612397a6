import Verif.Spec.Network
/-!
# What is answered, and what the client has announced that it takes
-/

namespace Mqrstt.Spec

/-- the answer MQTT demands to a packet from the server whatever has happened before (4.3.2, 4.3.3) -/
def answerTo : Packet → Option Packet
  | .publish p => match p.qos, p.pkid with
    | .atLeastOnce, some id => some (.pubAck ⟨id, .success, .empty⟩)
    | .exactlyOnce, some id => some (.pubRec ⟨id, .success, .empty⟩)
    | _, _ => none
  | .pubRel a => some (.pubComp ⟨a.id, .success, .empty⟩)
  | _ => none

/-- what follows the reading of `p`: its answer `r`, possibly after the handler has been called; or the end of `run`;
or, if `p` came in place of CONNACK, the failure of `connect` -/
inductive AnsweredNext (p r : Packet) : List Obs → Prop where
  | answered {a b rest} : AnsweredNext p r (.wrote r a b :: rest)
  | shown {a b rest} : AnsweredNext p r (.delivered p :: .wrote r a b :: rest)
  | ended {e rest} : AnsweredNext p r (.ended e :: rest)
  | shownEnded {e rest} : AnsweredNext p r (.delivered p :: .ended e :: rest)
  | notConnAck {e rest} : AnsweredNext p r (.connectFailed e :: rest)

/-- the identifiers of the messages of QoS `q` (1 or 2) that the server has sent on this connection and that the client has
not finished with PUBACK or PUBCOMP -/
def unfinishedStep (q : QoS) (ids : List UInt16) : Obs → List UInt16
  | .read (.publish p) => match p.pkid with
    | some id => if p.qos = q ∧ id ∉ ids then id :: ids else ids
    | none => ids
  | .wrote (.pubAck a) _ _ => if q = .atLeastOnce then ids.erase a.id else ids
  | .wrote (.pubComp a) _ _ => if q = .exactlyOnce then ids.erase a.id else ids
  | .wrote (.connect _) _ _ => []
  | .connectFailed _ => []
  | _ => ids

def unfinished (q : QoS) (tr : List Obs) : List UInt16 := tr.foldl (unfinishedStep q) []

/-- the receive maximum in the CONNECT written last -/
def announcedReceive (tr : List Obs) : Nat :=
  tr.foldl (fun n x => match x with
    | .wrote (.connect c) _ _ => ((c.props.val .receiveMaximum : Option UInt16).getD 65535).toNat
    | _ => n) 65535

/-- the maximum packet size in the CONNECT written last -/
def announcedSize (tr : List Obs) : Option Nat :=
  tr.foldl (fun n x => match x with
    | .wrote (.connect c) _ _ => (c.props.val .maximumPacketSize : Option UInt32).map UInt32.toNat
    | _ => n) none

end Mqrstt.Spec
