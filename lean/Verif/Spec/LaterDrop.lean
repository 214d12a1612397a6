import Verif.Spec.Later
import Verif.Model.Drop
/-!
# The same history at another time, where futures may be dropped (C120)
-/

namespace Mqrstt.Spec.Later

/-- the same step or drop, `d` later -/
def tokioWire (d : Nat) : TokioWireOp → TokioWireOp
  | .op op => .op (tokio d op)
  | .drop b a lost T => .drop b a lost (times d T)
  | .dropConnect i a => .dropConnect { i with times := times d i.times } a

/-- the same step or drop, `d` later -/
def smolWire (d : Nat) : SmolWireOp → SmolWireOp
  | .op op => .op (smol d op)
  | .drop b a T => .drop b a (times d T)
  | .dropConnect i a => .dropConnect { i with times := times d i.times } a

end Mqrstt.Spec.Later
