import Verif.Spec.Sender
/-!
# A client, a network that loses connections, and a server

What a server that follows MQTT v5 does with messages of QoS 1 and 2 (4.3.2, 4.3.3, 4.4), and what can happen between it
and the client. The client appears only through what is observed of it.
-/

namespace Mqrstt.Spec

structure World where
  /-- written by the client, not yet processed by the server and not lost -/
  toServer : List Packet
  /-- sent by the server on the connection opened last, not yet read by the client -/
  toClient : List Packet
  /-- the server: QoS 2 identifiers of messages handed on whose PUBREL has not come -/
  held : List UInt16
  /-- the server: there is a session for this client -/
  session : Bool
  /-- the server: messages of QoS 1 and 2 handed on to their subscribers, in order -/
  handed : List Publish
  /-- the server has accepted the connection opened last, and `connect` has not failed since -/
  up : Bool

namespace World

def start : World := ⟨[], [], [], false, [], false⟩

def isConnect : Packet → Bool
  | .connect _ => true
  | _ => false

/-- packets with which a server answers -/
def isAnswer : Packet → Bool
  | .connAck _ | .pubAck _ | .pubRec _ | .pubComp _ => true
  | _ => false

/-- packets a server has to answer -/
def isAsking : Packet → Bool
  | .connect _ | .pubRel _ => true
  | .publish p => p.qos ≠ .atMostOnce
  | _ => false

/-- the message, whichever of its copies this is -/
def message (p : Publish) : Publish := { p with dup := false }

/-- what an observation of the client means for the rest of the world. Opening a connection ends the one before: the
server still processes an initial part of what was under way on it and the client reads nothing more from it. On a
connection the client reads what the server sent in order, perhaps missing some. `run` is called only after a successful
`connect`. -/
inductive Client (w : World) : Obs → World → Prop where
  | connect {c : Connect} {a b : Nat} (k : Nat) : Client w (.wrote (.connect c) a b)
      { w with toServer := w.toServer.take k ++ [.connect c], toClient := [], up := false }
  | wrote {p : Packet} {a b : Nat} (h : isConnect p = false) : Client w (.wrote p a b) { w with toServer := w.toServer ++ [p] }
  | read {p : Packet} {missed rest : List Packet} (h : w.toClient = missed ++ p :: rest) (hc : ∀ c, p ≠ .connAck c) :
      Client w (.read p) { w with toClient := rest }
  | accepted {c : ConnAck} {missed rest : List Packet} (h : w.toClient = missed ++ .connAck c :: rest) (hc : c.reason = .success) :
      Client w (.read (.connAck c)) { w with toClient := rest, up := true }
  | refused {c : ConnAck} {missed rest : List Packet} (h : w.toClient = missed ++ .connAck c :: rest) (hc : c.reason ≠ .success) :
      Client w (.read (.connAck c)) { w with toClient := rest }
  | started (h : w.up = true) : Client w .started w
  | connectFailed {e : ConnErr} : Client w (.connectFailed e) { w with up := false }
  | connectPanicked : Client w .connectPanicked { w with up := false }
  | connected {c : ConnAck} {t : Nat} : Client w (.connected c t) w
  | delivered {p : Packet} : Client w (.delivered p) w
  | ended {r : End} : Client w (.ended r) w
  | cancelled : Client w .cancelled w
  | user {e : Event} : Client w (.user e) w

/-- the server takes a packet from the connection and answers it, in vain if the client has opened another connection -/
def answer (w : World) (rest : List Packet) (p : Packet) : World :=
  { w with toServer := rest, toClient := if rest.any isConnect then w.toClient else w.toClient ++ [p] }

/-- what the server does. `keeps`: it keeps the session when a connection ends (for ever; otherwise it ends with it).
It may refuse connections and messages. -/
inductive Server (keeps : Bool) (w : World) : World → Prop where
  | accept {c : Connect} {rest : List Packet} {a : ConnAck} (h : w.toServer = .connect c :: rest) (ha : a.reason = .success)
      (hp : a.sessionPresent = (keeps && w.session && !c.cleanStart)) :
      Server keeps w { w.answer rest (.connAck a) with session := true, held := if a.sessionPresent then w.held else [] }
  | refuse {c : Connect} {rest : List Packet} {a : ConnAck} (h : w.toServer = .connect c :: rest) (ha : a.reason ≠ .success) :
      Server keeps w (w.answer rest (.connAck a))
  | qos1 {p : Publish} {rest : List Packet} {a : Ack} (h : w.toServer = .publish p :: rest) (hq : p.qos = .atLeastOnce)
      (hi : p.pkid = some a.id) :
      Server keeps w { w.answer rest (.pubAck a) with
        handed := if Ledger.accepts a then w.handed ++ [message p] else w.handed }
  | qos2 {p : Publish} {rest : List Packet} {a : Ack} (h : w.toServer = .publish p :: rest) (hq : p.qos = .exactlyOnce)
      (hi : p.pkid = some a.id) (hn : a.id ∉ w.held) :
      Server keeps w { w.answer rest (.pubRec a) with
        handed := if Ledger.accepts a then w.handed ++ [message p] else w.handed,
        held := if Ledger.accepts a then w.held ++ [a.id] else w.held }
  | qos2again {p : Publish} {rest : List Packet} {a : Ack} (h : w.toServer = .publish p :: rest) (hq : p.qos = .exactlyOnce)
      (hi : p.pkid = some a.id) (hn : a.id ∈ w.held) (ha : Ledger.accepts a = true) :
      Server keeps w (w.answer rest (.pubRec a))
  | pubRel {r a : Ack} {rest : List Packet} (h : w.toServer = .pubRel r :: rest) (ha : a.id = r.id) :
      Server keeps w { w.answer rest (.pubComp a) with held := w.held.filter (· ≠ r.id) }
  | other {p : Packet} {rest : List Packet} (h : w.toServer = p :: rest) (hp : isAsking p = false) :
      Server keeps w { w with toServer := rest }
  | sends {p : Packet} (hp : isAnswer p = false) : Server keeps w { w with toClient := w.toClient ++ [p] }

/-- `w` can be the world when `tr` has been observed of the client -/
inductive Story (keeps : Bool) : List Obs → World → Prop where
  | start : Story keeps [] World.start
  | client {tr w x w'} (h : Story keeps tr w) (hs : Client w x w') : Story keeps (tr ++ [x]) w'
  | server {tr w w'} (h : Story keeps tr w) (hs : Server keeps w w') : Story keeps tr w'

end World

/-- the messages of QoS 1 and 2 that the client has written, each once -/
def sentIn (tr : List Obs) : List Publish := tr.filterMap fun
  | .wrote (.publish p) _ _ => if p.qos ≠ .atMostOnce ∧ p.dup = false then some p else none
  | _ => none

/-- those of one QoS -/
def ofQos (q : QoS) (ps : List Publish) : List Publish := ps.filter (·.qos = q)

end Mqrstt.Spec
