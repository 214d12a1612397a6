import Verif.Spec.Sender
/-!
# Why a client may write a packet

The reasons for which MQTT v5 and the API let a client send a packet, in terms of what was observed before.
-/

namespace Mqrstt.Spec

/-- a client call produced this packet -/
def AskedIn (tr : List Obs) (p : Packet) : Prop := ∃ q id, .user (.called q id p) ∈ tr

/-- the reason for writing a packet after `pre` was observed, `o` being the options -/
inductive Origin (o : Options) (pre : List Obs) : Packet → Prop where
  /-- CONNECT, made from the options; the keep-alive time may be one that a server named -/
  | connect {c : Connect} {k : Nat} (h : .connect c = { o with keepAlive := k }.connectPacket) : Origin o pre (.connect c)
  /-- a client call -/
  | asked {p : Packet} (h : AskedIn pre p) : Origin o pre p
  /-- a message of QoS 1 or 2 sent before, now marked as a copy -/
  | copy {p : Publish} {a b : Nat} (h : .wrote (.publish p) a b ∈ pre) (hq : p.qos ≠ .atMostOnce) (hd : p.dup = false) :
      Origin o pre (.publish { p with dup := true })
  /-- the answer to a message of QoS 1 -/
  | pubAck {p : Publish} {id : UInt16} (h : .read (.publish p) ∈ pre) (hq : p.qos = .atLeastOnce) (hi : p.pkid = some id) :
      Origin o pre (.pubAck ⟨id, .success, .empty⟩)
  /-- the answer to a message of QoS 2 -/
  | pubRec {p : Publish} {id : UInt16} (h : .read (.publish p) ∈ pre) (hq : p.qos = .exactlyOnce) (hi : p.pkid = some id) :
      Origin o pre (.pubRec ⟨id, .success, .empty⟩)
  /-- the answer to PUBREL -/
  | pubComp {a : Ack} (h : .read (.pubRel a) ∈ pre) : Origin o pre (.pubComp ⟨a.id, .success, .empty⟩)
  /-- after a PUBREC that accepts a message which the client has sent -/
  | pubRel {a : Ack} {p : Publish} {t t' : Nat} (h : .read (.pubRec a) ∈ pre) (hs : Ledger.accepts a = true)
      (hw : .wrote (.publish p) t t' ∈ pre) (hq : p.qos ≠ .atMostOnce) (hi : p.pkid = some a.id) :
      Origin o pre (.pubRel ⟨a.id, .success, .empty⟩)
  /-- keep-alive -/
  | pingReq : Origin o pre .pingReq
  /-- the server did not answer a ping -/
  | timeout : Origin o pre (.disconnect ⟨.keepAliveTimeout, .empty⟩)

end Mqrstt.Spec
