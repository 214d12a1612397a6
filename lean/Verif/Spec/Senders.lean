import Verif.Spec.Network
/-!
# When there are no clients any more
-/

namespace Mqrstt.Spec

/-- all clients have been dropped -/
def ClientsGone (tr : List Obs) : Prop := .user .clientsDropped ∈ tr

/-- the publishes, subscribes and unsubscribes that the clients put into the queue -/
def queuedIn (tr : List Obs) : List Packet := (submittedIn tr).filter isFresh

/-- how often `run` has returned an error -/
def failedRuns (tr : List Obs) : Nat := tr.countP fun | .ended (.error _) => true | _ => false

/-- the packets with which the server completes an exchange that the client began -/
def isCompletion : Packet → Bool
  | .pubAck _ | .pubComp _ | .subAck _ | .unsubAck _ => true
  | _ => false

end Mqrstt.Spec
