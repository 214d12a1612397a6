import Verif.Spec.Sender
import Verif.Spec.Refusals
/-!
# Nothing is stuck for good (C116)

What can still happen when no client asks for anything new, and what it means that everything asked for is finished.
-/

namespace Mqrstt.Spec

/-- no call begins, and nothing is dropped but the future of `run`: the calls that wait go on, `run` is cancelled, `connect` and
`run` are called again, bytes arrive, the loop turns -/
def onlyServesTokio : TokioOp → Bool
  | .client (.submit _) | .connect _ | .start | .arrive _ | .turn _ _ _ _ | .cancel _ => true
  | _ => false

def onlyServesSmol : SmolOp → Bool
  | .client (.submit _) | .connect _ | .start | .turn _ _ _ | .cancel => true
  | _ => false

/-- From what was observed (`tr`) to what was observed in the end (`tr ++ obs`): `run` executes; no call waits; every message sent
has got its last acknowledgement; none was refused for that, and none was given up, unless the client itself asks for a new session
with every connection. -/
structure Settles (cleanStart : Bool) (tr obs : List Obs) : Prop where
  running : isRunning (tr ++ obs) = true
  returned : waitingCalls (tr ++ obs) = 0
  acked : (sender cleanStart (tr ++ obs)).unacked = []
  completed : (sender cleanStart (tr ++ obs)).accepted = []
  refused : (sender cleanStart (tr ++ obs)).refused = (sender cleanStart tr).refused
  discarded : cleanStart = false → (sender cleanStart (tr ++ obs)).discarded = (sender cleanStart tr).discarded

end Mqrstt.Spec
