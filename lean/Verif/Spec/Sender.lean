import Verif.Spec.Network
import Verif.Spec.Session
/-!
# What a sender may put on the wire

The rules of MQTT v5 for the sender of QoS 1 and 2 messages (4.3.2, 4.3.3, 4.4), on what is observed of the client: what it
wrote, what it read and when `run` began and ended. Nothing here refers to the state of the client.
-/

namespace Mqrstt.Spec

/-- what a sender has to remember -/
structure Sender where
  /-- `run` is executing -/
  running : Bool
  /-- publishes of QoS 1 and 2 written and not acknowledged, in the order in which they were first written -/
  unacked : List Publish
  /-- identifiers of publishes accepted by PUBREC, waiting for PUBCOMP, in order of PUBREC -/
  accepted : List UInt16
  /-- publishes that may still be sent again on this connection -/
  again : List Publish
  /-- identifiers whose PUBREL may still be sent on this connection -/
  rels : List UInt16
  /-- publishes that the server accepted with PUBACK -/
  acked : List Publish
  /-- publishes that the server refused with PUBACK or PUBREC -/
  refused : List Publish
  /-- publishes given up because the session was not resumed -/
  discarded : List Publish

namespace Sender

def start : Sender := ⟨false, [], [], [], [], [], [], []⟩

/-- does a publish carry this identifier -/
def isFor (id : UInt16) (p : Publish) : Bool := p.pkid == some id

/-- a packet was written -/
def onWrote (s : Sender) : Packet → Sender
  | .connect _ => { s with again := [], rels := [] }
  | .publish p =>
    if p.qos = .atMostOnce then s
    else if p.dup then { s with again := (s.again.dropWhile fun q => q.pkid != p.pkid).tail }
    else { s with unacked := s.unacked ++ [p] }
  | .pubRel a => { s with rels := s.rels.erase a.id }
  | _ => s

/-- an acknowledgement was read during `run` -/
def onAck (s : Sender) : Packet → Sender
  | .pubAck a =>
    let s' := { s with unacked := s.unacked.filter fun p => !isFor a.id p }
    if Ledger.accepts a then { s' with acked := s.acked ++ s.unacked.filter (isFor a.id) }
    else { s' with refused := s.refused ++ s.unacked.filter (isFor a.id) }
  | .pubRec a =>
    if s.unacked.any (isFor a.id) then
      let s' := { s with unacked := s.unacked.filter fun p => !isFor a.id p }
      if Ledger.accepts a then { s' with accepted := s.accepted ++ [a.id], rels := s.rels ++ [a.id] }
      else { s' with refused := s.refused ++ s.unacked.filter (isFor a.id) }
    else s
  | .pubComp a => { s with accepted := s.accepted.erase a.id }
  | _ => s

/-- the server has accepted a CONNECT -/
def onAccepted (cleanStart : Bool) (s : Sender) (c : ConnAck) : Sender :=
  if Ledger.resumed cleanStart c then { s with again := s.unacked, rels := s.accepted }
  else { s with unacked := [], accepted := [], again := [], rels := [], discarded := s.discarded ++ s.unacked }

/-- the sender after an observation -/
def next (cleanStart : Bool) (s : Sender) : Obs → Sender
  | .wrote p _ _ => s.onWrote p
  | .read p =>
    if s.running then s.onAck p
    else match p with
      | .connAck c => if c.reason = .success then s.onAccepted cleanStart c else s
      | _ => s
  | .started => { s with running := true, again := [], rels := [] }
  | .ended _ => { s with running := false }
  | .cancelled => { s with running := false }
  | _ => s

/-- May this packet be written now? A new publish needs an identifier that no other publish in flight has; a publish is
sent again only while connecting to a resumed session, as it was but for DUP, each at most once and in the old order; a
PUBREL follows an accepting PUBREC, and is sent again only when the session is resumed. -/
def MaySend (cleanStart : Bool) (s : Sender) : Packet → Prop
  | .connect c => s.running = false ∧ c.cleanStart = cleanStart
  | .publish p =>
    (p.qos = .atMostOnce ∧ p.dup = false ∧ p.pkid = none) ∨
    (p.qos ≠ .atMostOnce ∧ p.dup = false ∧ s.running = true ∧
      ∃ id, p.pkid = some id ∧ s.unacked.any (isFor id) = false ∧ id ∉ s.accepted) ∨
    (p.qos ≠ .atMostOnce ∧ s.running = false ∧ ∃ q ∈ s.again, p = { q with dup := true })
  | .pubRel a => a.id ∈ s.rels ∧ a.reason = .success
  | _ => True

end Sender

/-- the sender after everything observed -/
def sender (cleanStart : Bool) (tr : List Obs) : Sender := tr.foldl (Sender.next cleanStart) Sender.start

/-- the histories of either network with these options -/
inductive IsTraceWith (o : Options) (tr : List Obs) : Prop where
  | tokio (t : Nat) (ops : List TokioOp) (h : tr = tokioTrace o t ops)
  | smol (checks : Bool) (t : Nat) (ops : List SmolOp) (h : tr = smolTrace checks o t ops)

end Mqrstt.Spec
