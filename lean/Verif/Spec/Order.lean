import Verif.Spec.Network
/-!
# The order of answers (MQTT v5, 4.6)
-/

namespace Mqrstt.Spec

/-- an answer, with the identifier that it names -/
inductive Reply where
  | pubAck (id : UInt16)
  | pubRec (id : UInt16)
  | pubRel (id : UInt16)
  | pubComp (id : UInt16)
deriving DecidableEq

/-- the answer that a packet is -/
def Reply.of : Packet → Option Reply
  | .pubAck a => some (.pubAck a.id)
  | .pubRec a => some (.pubRec a.id)
  | .pubRel a => some (.pubRel a.id)
  | .pubComp a => some (.pubComp a.id)
  | _ => none

/-- the answer that a packet calls for -/
def Reply.to : Packet → Option Reply
  | .publish p =>
    match p.qos, p.pkid with
    | .atLeastOnce, some id => some (.pubAck id)
    | .exactlyOnce, some id => some (.pubRec id)
    | _, _ => none
  | .pubRec a => some (.pubRel a.id)
  | .pubRel a => some (.pubComp a.id)
  | _ => none

/-- what `run` has read and written, as far as answers are concerned -/
structure Replies where
  running : Bool
  /-- the answers that the packets read call for, in the order of those packets -/
  due : List Reply
  /-- the answers written, in order -/
  given : List Reply

/-- only what happens while `run` is at work counts; what `connect` reads and writes does not -/
def Replies.next (s : Replies) : Obs → Replies
  | .read p => if s.running then { s with due := s.due ++ (Reply.to p).toList } else s
  | .wrote p _ _ => if s.running then { s with given := s.given ++ (Reply.of p).toList } else s
  | x => { s with running := runStep s.running x }

/-- the answers that `run` owes and the answers that it gave -/
def replies (tr : List Obs) : Replies := tr.foldl Replies.next ⟨false, [], []⟩

/-- the identifiers of the PUBRECs read, in order -/
def recsIn (tr : List Obs) : List UInt16 := tr.filterMap fun
  | .read (.pubRec a) => some a.id
  | _ => none

/-- the identifiers of the PUBRELs written since the last CONNECT, in order -/
def relsOnLast (tr : List Obs) : List UInt16 :=
  tr.foldl (fun ids x => match x with
    | .wrote (.connect _) _ _ => []
    | .wrote (.pubRel a) _ _ => ids ++ [a.id]
    | _ => ids) []

end Mqrstt.Spec
