import Verif.Spec.Identity
import Verif.Model.Drop
/-!
# Histories in which no timer fires (C124)
-/

namespace Mqrstt.Spec

/-- The two configurations agree in clean start and the three limits. They may differ in everything else, also in keep-alive. -/
structure SameLimits (o o' : Options) : Prop where
  cleanStart : o.cleanStart = o'.cleanStart
  receiveMax : o.receiveMax = o'.receiveMax
  sendMax : o.sendMax = o'.sendMax
  maxPacketSize : o.maxPacketSize = o'.maxPacketSize

/-- what was observed, of a CONNECT only when it was written -/
def butConnect : Obs → Obs ⊕ (Nat × Nat)
  | .wrote (.connect _) start stop => .inr (start, stop)
  | x => .inl x

/-- not a turn in which the keep-alive timer fires -/
def tokioUntimed : TokioOp → Prop
  | .turn .timer _ _ _ => False
  | _ => True

/-- not a turn in which the keep-alive timer fires -/
def smolUntimed : SmolOp → Prop
  | .turn .timer _ _ => False
  | _ => True

/-- the same where the futures of `run` and `connect` may be dropped anywhere -/
def tokioWireUntimed : TokioWireOp → Prop
  | .op op => tokioUntimed op
  | .drop .timer _ _ _ => False
  | _ => True

/-- the same where the futures of `run` and `connect` may be dropped anywhere -/
def smolWireUntimed : SmolWireOp → Prop
  | .op op => smolUntimed op
  | .drop .timer _ _ => False
  | _ => True

end Mqrstt.Spec
