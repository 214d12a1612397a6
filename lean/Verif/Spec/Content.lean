import Verif.Model.System
/-!
# Messages with other content (C119)
-/

namespace Mqrstt.Spec

/-- Other topics, payloads, properties and retain flags for messages and subscriptions, of the same lengths. -/
structure Rewrite where
  topic : Str → Str
  payload : Bytes → Bytes
  retain : Bool → Bool
  props : Props → Props
  topicLength : ∀ t, (topic t).bytes.length = t.bytes.length
  payloadLength : ∀ b, (payload b).length = b.length
  propsLength : ∀ es P, (props P).wireLen es = P.wireLen es

namespace Rewrite

def publish (w : Rewrite) (p : Publish) : Publish :=
  { p with topic := w.topic p.topic, payload := w.payload p.payload, retain := w.retain p.retain, props := w.props p.props }

/-- Publishes, subscriptions and unsubscriptions are rewritten; other packets stay. -/
def packet (w : Rewrite) : Packet → Packet
  | .publish p => .publish (w.publish p)
  | .subscribe p => .subscribe { p with props := w.props p.props, topics := p.topics.map fun t => (w.topic t.1, t.2) }
  | .unsubscribe p => .unsubscribe { p with props := w.props p.props, topics := p.topics.map w.topic }
  | p => p

def request (w : Rewrite) : Request → Request
  | .publish topic qos retain payload props => .publish (w.topic topic) qos (w.retain retain) (w.payload payload) (w.props props)
  | .subscribe topics props => .subscribe (topics.map fun t => (w.topic t.1, t.2)) (w.props props)
  | .unsubscribe topics props => .unsubscribe (topics.map w.topic) (w.props props)
  | .disconnect reason props => .disconnect reason props

/-- the same step with the other content -/
def op (w : Rewrite) : Op → Op
  | .call r => .call (w.request r)
  | .receive p => .receive (w.packet p)
  | o => o

/-- the same observation with the other content -/
def event (w : Rewrite) : Event → Event
  | .called r id p => .called (w.request r) id (w.packet p)
  | .rejected r id e => .rejected (w.request r) id e
  | .submitted p => .submitted (w.packet p)
  | .refused p => .refused (w.packet p)
  | .abandoned p => .abandoned (w.packet p)
  | .written p => .written (w.packet p)
  | .writtenError p e => .writtenError (w.packet p) e
  | .writeFailed p => .writeFailed (w.packet p)
  | .received p reply shown => .received (w.packet p) reply shown
  | .receivedError p e => .receivedError (w.packet p) e
  | .connected c resend => .connected c (resend.map w.packet)
  | e => e

end Rewrite
end Mqrstt.Spec
