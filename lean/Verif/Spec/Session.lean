import Verif.Model.System
/-!
# Specification of the sender's side of a session

A ledger of unfinished operations, computed from what can be observed from outside: which calls were
made, what was written to the connection and what was received. It knows nothing of slots, pools and
sets: five plain lists. The theorems say that the client behaves as this ledger demands.
-/

namespace Mqrstt

/-- the packet identifier of a publish, subscribe or unsubscribe packet -/
def Packet.ident : Packet → Option UInt16
  | .publish p => p.pkid
  | .subscribe p => some p.id
  | .unsubscribe p => some p.id
  | _ => none

namespace Spec

structure Ledger where
  /-- identifiers of calls that have not returned yet -/
  calling : List UInt16
  /-- identifiers of packets that were submitted but have not been written successfully -/
  queued : List UInt16
  /-- publishes of QoS 1 and 2 written and not acknowledged, in the order in which they were written -/
  unacked : List Publish
  /-- identifiers of QoS 2 publishes accepted by PUBREC and waiting for PUBCOMP, in order of PUBREC -/
  accepted : List UInt16
  /-- identifiers of subscribes waiting for SUBACK -/
  subscribes : List UInt16
  /-- identifiers of unsubscribes waiting for UNSUBACK -/
  unsubscribes : List UInt16

namespace Ledger

def empty : Ledger := ⟨[], [], [], [], [], []⟩

/-- the identifiers of the unacknowledged publishes -/
def publishIds (l : Ledger) : List UInt16 := l.unacked.filterMap (·.pkid)

/-- the identifiers of all unfinished operations -/
def ids (l : Ledger) : List UInt16 :=
  l.calling ++ l.queued ++ l.publishIds ++ l.accepted ++ l.subscribes ++ l.unsubscribes

/-- remove an optional identifier -/
def without (ids : List UInt16) : Option UInt16 → List UInt16
  | none => ids
  | some id => ids.erase id

/-- a PUBREC that accepts the message -/
def accepts (a : Ack) : Bool := a.reason = .success || a.reason = .noMatchingSubscribers

/-- the session is the old one: the server has it and the client did not ask for a clean start -/
def resumed (cleanStart : Bool) (c : ConnAck) : Bool := c.sessionPresent && !cleanStart

/-- a packet was written to the connection -/
def onWritten (l : Ledger) (p : Packet) : Ledger :=
  let l := { l with queued := without l.queued p.ident }
  match p with
  | .publish p => if p.qos = .atMostOnce then l else { l with unacked := l.unacked ++ [p] }
  | .subscribe p => { l with subscribes := l.subscribes ++ [p.id] }
  | .unsubscribe p => { l with unsubscribes := l.unsubscribes ++ [p.id] }
  | _ => l

/-- an acknowledgement was received and accepted -/
def onReceived (l : Ledger) : Packet → Ledger
  | .pubAck a => { l with unacked := l.unacked.filter (·.pkid ≠ some a.id) }
  | .pubRec a =>
    { l with unacked := l.unacked.filter (·.pkid ≠ some a.id),
             accepted := if accepts a then l.accepted ++ [a.id] else l.accepted }
  | .pubComp a => { l with accepted := l.accepted.erase a.id }
  | .subAck a => { l with subscribes := l.subscribes.erase a.id }
  | .unsubAck a => { l with unsubscribes := l.unsubscribes.erase a.id }
  | _ => l

/-- the server accepted the connection -/
def onConnected (cleanStart : Bool) (l : Ledger) (c : ConnAck) : Ledger :=
  if resumed cleanStart c then { l with subscribes := [], unsubscribes := [] }
  else { l with unacked := [], accepted := [], subscribes := [], unsubscribes := [] }

/-- the ledger after an event; `cleanStart` is the configured option. When all clients are gone, an
identifier can no longer be given back; this is reported as an error, but the acknowledgement or
CONNACK has had its effect. -/
def step (cleanStart : Bool) (l : Ledger) : Event → Ledger
  | .called _ id _ => { l with calling := l.calling ++ id.toList }
  | .submitted p =>
    { l with calling := without l.calling p.ident, queued := l.queued ++ p.ident.toList }
  | .refused p => { l with calling := without l.calling p.ident }
  | .abandoned p => { l with calling := without l.calling p.ident }
  | .clientsDropped => { l with calling := [] }
  | .written p => l.onWritten p
  | .received p _ _ => l.onReceived p
  | .receivedError p (.packetIdChannelError _) => l.onReceived p
  | .connected c _ => l.onConnected cleanStart c
  | .connectError c _ => l.onConnected cleanStart c
  | _ => l

/-- the ledger after a history -/
def after (cleanStart : Bool) (h : List Event) : Ledger := h.foldl (step cleanStart) empty

/-- The identifiers that an event takes out of circulation for good: the operation is over, but the
identifier is not given back. -/
def leak (cleanStart : Bool) (l : Ledger) : Event → List UInt16
  | .rejected _ id _ => id.toList
  | .refused p => p.ident.toList
  | .abandoned p => p.ident.toList
  | .clientsDropped => l.calling
  | .received (.pubRec a) _ _ => if accepts a then [] else [a.id]
  | .receivedError _ (.packetIdChannelError id) => [id]
  | .connected c _ => if resumed cleanStart c then [] else l.accepted
  | .connectError c _ =>
    l.subscribes ++ l.unsubscribes ++
      if resumed cleanStart c then [] else l.publishIds ++ l.accepted
  | _ => []

/-- all identifiers lost in a history that starts with ledger `l` -/
def lost (cleanStart : Bool) (l : Ledger) : List Event → List UInt16
  | [] => []
  | e :: es => l.leak cleanStart e ++ (l.step cleanStart e).lost cleanStart es

end Ledger
end Spec
end Mqrstt
