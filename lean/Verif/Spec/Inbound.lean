import Verif.Spec.EndToEnd
/-!
# The server sends messages to the client

What a server that follows MQTT v5 does to send messages of QoS 1 and 2 to the client (4.3.2, 4.3.3, 4.4), added to the world
of `Spec/EndToEnd.lean`. The client appears only through what is observed of it.
-/

namespace Mqrstt.Spec

/-- a message of QoS 1 or 2 that the server has begun to send and that is not finished -/
structure Outgoing where
  message : Publish
  /-- PUBREC has come, PUBCOMP is awaited -/
  released : Bool
  /-- it (or its PUBREL) has been sent since the server accepted the last connection -/
  sent : Bool

structure Duplex where
  net : World
  /-- the server: unfinished messages to the client -/
  out : List Outgoing
  /-- the server: all messages of QoS 1 and 2 that it has begun to send, in order -/
  begun : List Publish
  /-- the server: the messages whose exchange the client has finished, with PUBACK or PUBCOMP -/
  done : List Publish

namespace Duplex
open World

def start : Duplex := ⟨World.start, [], [], []⟩

/-- the server sends a packet, in vain if the client has opened another connection -/
def put (w : World) (p : Packet) : World := if w.toServer.any isConnect then w else { w with toClient := w.toClient ++ [p] }

/-- packets that concern the messages which the server sends, and CONNECT -/
def isOurs : Packet → Bool
  | .connect _ | .pubAck _ | .pubRec _ | .pubComp _ => true
  | _ => false

/-- packets with which the server sends messages of QoS 1 and 2 -/
def isExchange : Packet → Bool
  | .publish p => p.qos ≠ .atMostOnce
  | .pubRel _ => true
  | _ => false

/-- What the server does. `other`: it serves the client's own requests as described there. A new message gets an identifier
that no unfinished message has. On a resumed session unfinished messages are sent again, marked as copies, and PUBRELs too; on a
new session they are given up. -/
inductive Server (keeps : Bool) (d : Duplex) : Duplex → Prop where
  | other {p : Packet} {rest : List Packet} {w : World} (h : d.net.toServer = p :: rest) (hp : isOurs p = false)
      (hs : World.Server keeps d.net w) (hr : w.toServer = rest) : Server keeps d { d with net := w }
  | accept {c : Connect} {rest : List Packet} {a : ConnAck} (h : d.net.toServer = .connect c :: rest) (ha : a.reason = .success)
      (hp : a.sessionPresent = (keeps && d.net.session && !c.cleanStart)) :
      Server keeps d { d with
        net := { d.net.answer rest (.connAck a) with session := true, held := if a.sessionPresent then d.net.held else [] },
        out := if a.sessionPresent then d.out.map ({ · with sent := false }) else [] }
  | refuse {c : Connect} {rest : List Packet} {a : ConnAck} (h : d.net.toServer = .connect c :: rest) (ha : a.reason ≠ .success) :
      Server keeps d { d with net := d.net.answer rest (.connAck a) }
  | sends {p : Packet} (ha : isAnswer p = false) (hp : isExchange p = false) : Server keeps d { d with net := put d.net p }
  | begins {m : Publish} {id : UInt16} (hq : m.qos ≠ .atMostOnce) (hd : m.dup = false) (hi : m.pkid = some id)
      (hn : ∀ o ∈ d.out, o.message.pkid ≠ some id) :
      Server keeps d { d with net := put d.net (.publish m), out := d.out ++ [⟨m, false, true⟩], begun := d.begun ++ [m] }
  | again {o : Outgoing} {pre post : List Outgoing} (h : d.out = pre ++ o :: post) (hs : o.sent = false) (hr : o.released = false) :
      Server keeps d { d with net := put d.net (.publish { o.message with dup := true }), out := pre ++ { o with sent := true } :: post }
  | releasesAgain {o : Outgoing} {pre post : List Outgoing} {a : Ack} (h : d.out = pre ++ o :: post) (hs : o.sent = false)
      (hr : o.released = true) (hi : o.message.pkid = some a.id) :
      Server keeps d { d with net := put d.net (.pubRel a), out := pre ++ { o with sent := true } :: post }
  | pubAck {o : Outgoing} {pre post : List Outgoing} {a : Ack} {rest : List Packet} (hw : d.net.toServer = .pubAck a :: rest)
      (h : d.out = pre ++ o :: post) (hi : o.message.pkid = some a.id) (hq : o.message.qos = .atLeastOnce) :
      Server keeps d { d with net := { d.net with toServer := rest }, out := pre ++ post, done := d.done ++ [o.message] }
  | pubRec {o : Outgoing} {pre post : List Outgoing} {a r : Ack} {rest : List Packet} (hw : d.net.toServer = .pubRec a :: rest)
      (h : d.out = pre ++ o :: post) (hi : o.message.pkid = some a.id) (hq : o.message.qos = .exactlyOnce)
      (ha : Ledger.accepts a = true) (hr : r.id = a.id) :
      Server keeps d { d with net := put { d.net with toServer := rest } (.pubRel r), out := pre ++ { o with released := true } :: post }
  | refused {o : Outgoing} {pre post : List Outgoing} {a : Ack} {rest : List Packet} (hw : d.net.toServer = .pubRec a :: rest)
      (h : d.out = pre ++ o :: post) (hi : o.message.pkid = some a.id) (hq : o.message.qos = .exactlyOnce)
      (ha : Ledger.accepts a = false) :
      Server keeps d { d with net := { d.net with toServer := rest }, out := pre ++ post }
  | pubComp {o : Outgoing} {pre post : List Outgoing} {a : Ack} {rest : List Packet} (hw : d.net.toServer = .pubComp a :: rest)
      (h : d.out = pre ++ o :: post) (hi : o.message.pkid = some a.id) (hr : o.released = true) :
      Server keeps d { d with net := { d.net with toServer := rest }, out := pre ++ post, done := d.done ++ [o.message] }
  /-- it ignores an acknowledgement -/
  | ignores {p : Packet} {rest : List Packet} (hw : d.net.toServer = p :: rest) (hp : isOurs p = true) (hc : isConnect p = false) :
      Server keeps d { d with net := { d.net with toServer := rest } }

/-- `d` can be the world when `tr` has been observed of the client -/
inductive Story (keeps : Bool) : List Obs → Duplex → Prop where
  | start : Story keeps [] Duplex.start
  | client {tr d x w} (h : Story keeps tr d) (hs : World.Client d.net x w) : Story keeps (tr ++ [x]) { d with net := w }
  | server {tr d d'} (h : Story keeps tr d) (hs : Server keeps d d') : Story keeps tr d'

end Duplex

/-- the messages of QoS 1 and 2 that the client has read in `run`, copies included: flag and messages -/
def gotStep (s : Bool × List Publish) : Obs → Bool × List Publish
  | .read (.publish p) => (s.1, if s.1 ∧ p.qos ≠ .atMostOnce ∧ p.pkid ≠ none then s.2 ++ [p] else s.2)
  | x => (runStep s.1 x, s.2)

def gotIn (tr : List Obs) : List Publish := (tr.foldl gotStep (false, [])).2

/-- the messages of QoS 1 and 2 that the handler was called with, copies included -/
def handledIn (tr : List Obs) : List Publish := tr.filterMap fun
  | .delivered (.publish p) => if p.qos ≠ .atMostOnce then some p else none
  | _ => none

end Mqrstt.Spec
