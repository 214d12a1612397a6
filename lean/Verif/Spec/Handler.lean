import Verif.Model.System
/-!
# What can happen while the user's handler runs

The run loop waits for the handler (`handler.handle(packet).await`), so in this time nothing is read, written or
acknowledged. Clients can be used, in the handler or elsewhere; as the handler uses one, not all are dropped.
-/

namespace Mqrstt.Spec

/-- a step that is possible while the handler runs: a call gets ready, a waiting call completes, a call is given up -/
def duringHandler : Op → Bool
  | .call _ | .submit _ | .abandon _ => true
  | _ => false

/-- the steps of one call of the handler that nobody interferes with: the call gets ready, then it completes (`k` other calls
were already waiting) -/
def handlerCall (k : Nat) (q : Request) : List Op := [.call q, .submit k]

end Mqrstt.Spec
