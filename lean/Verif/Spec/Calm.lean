import Verif.Spec.Requests
import Verif.Spec.Senders
import Verif.Spec.Legal
import Verif.Model.Options
/-!
# A well-behaved server, and ends of `run` that are nobody's fault
-/

namespace Mqrstt.Spec

/-- a packet that a server has reason to send after everything observed: a message or the release of one, the answer to a ping, a
DISCONNECT, or an acknowledgement for which the client waits -/
def InPlace (cleanStart : Bool) (tr : List Obs) : Packet → Prop
  | .publish _ | .pubRel _ | .pingResp | .disconnect _ => True
  | p => Awaits cleanStart tr p

/-- the connection broke, one side said goodbye, the server did not answer a ping, or `run` was called without a connection -/
def Expected : End → Prop
  | .status _ | .error .io | .error .noNetwork => True
  | _ => False

/-- the user has called the client as C70 demands, has kept it, and has configured no more identifiers than slots -/
structure UsedWell (o : Options) (tr : List Obs) : Prop where
  requests : ∀ q id p, .user (.called q id p) ∈ tr → _root_.Spec.LegalRequest q ∧
    ∀ r P, q = .disconnect r P → (Packet.disconnect ⟨r, P⟩).bodyWireLen ≤ 268435455
  kept : ¬ ClientsGone tr
  maxima : o.sendMaximum ≤ o.receiveMaximum

end Mqrstt.Spec
