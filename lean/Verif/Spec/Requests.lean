import Verif.Spec.Sender
/-!
# Which acknowledgements a client waits for

On what is observed of the client: what it wrote, what it read and when `run` began and ended. Nothing here refers to the
state of the client.
-/

namespace Mqrstt.Spec

/-- the subscribe and unsubscribe requests without an answer -/
structure Requests where
  /-- `run` is executing -/
  running : Bool
  /-- identifiers of SUBSCRIBE packets written on this connection and not yet answered by SUBACK -/
  subscribes : List UInt16
  /-- identifiers of UNSUBSCRIBE packets written on this connection and not yet answered by UNSUBACK -/
  unsubscribes : List UInt16

namespace Requests

def start : Requests := ⟨false, [], []⟩

/-- a packet was written -/
def onWrote (r : Requests) : Packet → Requests
  | .subscribe p => { r with subscribes := r.subscribes ++ [p.id] }
  | .unsubscribe p => { r with unsubscribes := r.unsubscribes ++ [p.id] }
  | _ => r

/-- a packet was read during `run` -/
def onAck (r : Requests) : Packet → Requests
  | .subAck a => { r with subscribes := r.subscribes.filter (· ≠ a.id) }
  | .unsubAck a => { r with unsubscribes := r.unsubscribes.filter (· ≠ a.id) }
  | _ => r

/-- the requests after an observation; an accepted CONNECT begins a connection without any -/
def next (r : Requests) : Obs → Requests
  | .wrote p _ _ => r.onWrote p
  | .read p =>
    if r.running then r.onAck p
    else match p with
      | .connAck c => if c.reason = .success then { r with subscribes := [], unsubscribes := [] } else r
      | _ => r
  | .started => { r with running := true }
  | .ended _ => { r with running := false }
  | .cancelled => { r with running := false }
  | _ => r

end Requests

/-- the requests after everything observed -/
def requests (tr : List Obs) : Requests := tr.foldl Requests.next Requests.start

/-- does the client wait for this acknowledgement? -/
def Awaits (cleanStart : Bool) (tr : List Obs) : Packet → Prop
  | .pubAck a => ∃ p ∈ (sender cleanStart tr).unacked, p.pkid = some a.id ∧ p.qos = .atLeastOnce
  | .pubRec a => ∃ p ∈ (sender cleanStart tr).unacked, p.pkid = some a.id ∧ p.qos = .exactlyOnce
  | .pubComp a => a.id ∈ (sender cleanStart tr).accepted
  | .subAck a => a.id ∈ (requests tr).subscribes
  | .unsubAck a => a.id ∈ (requests tr).unsubscribes
  | _ => False

end Mqrstt.Spec
