import Verif.Spec.Session
/-!
# What the server still owes (C92)

The answers an unfinished operation needs: PUBACK for a message of QoS 1, PUBREC and PUBCOMP for one of QoS 2, SUBACK,
UNSUBACK.
-/

namespace Mqrstt.Spec

/-- answers needed by a message that was sent -/
def needs (p : Publish) : Nat := if p.qos = .exactlyOnce then 2 else 1

/-- answers needed by all operations that were sent and are not finished -/
def owed (l : Ledger) : Nat :=
  (l.unacked.map needs).sum + l.accepted.length + l.subscribes.length + l.unsubscribes.length

/-- the packet is one of these answers; a PUBREC accepts the message -/
def IsAnswer (l : Ledger) : Packet → Prop
  | .pubAck a => ∃ p ∈ l.unacked, p.pkid = some a.id ∧ p.qos = .atLeastOnce
  | .pubRec a => (∃ p ∈ l.unacked, p.pkid = some a.id ∧ p.qos = .exactlyOnce) ∧ Ledger.accepts a = true
  | .pubComp a => a.id ∈ l.accepted
  | .subAck a => a.id ∈ l.subscribes
  | .unsubAck a => a.id ∈ l.unsubscribes
  | _ => False

/-- a sequence of packets each of which is an answer when it comes, in any order -/
def Answers : Ledger → List Packet → Prop
  | _, [] => True
  | l, p :: ps => IsAnswer l p ∧ Answers (l.onReceived p) ps

/-- no operation that was sent is unfinished -/
def NothingOpen (l : Ledger) : Prop := l.unacked = [] ∧ l.accepted = [] ∧ l.subscribes = [] ∧ l.unsubscribes = []

end Mqrstt.Spec
