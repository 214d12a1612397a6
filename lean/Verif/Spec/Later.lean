import Verif.Model.Tokio
import Verif.Model.Smol
/-!
# The same history at another time (C120)
-/

namespace Mqrstt.Spec.Later

def times (d : Nat) (T : Times) : Times := ⟨T.enter + d, T.fire + d, T.first + d, T.second + d⟩

/-- the same step, `d` later -/
def tokio (d : Nat) : TokioOp → TokioOp
  | .connect i => .connect { i with times := times d i.times }
  | .turn b lost io T => .turn b lost io (times d T)
  | o => o

/-- the same step, `d` later -/
def smol (d : Nat) : SmolOp → SmolOp
  | .connect i => .connect { i with times := times d i.times }
  | .turn b io T => .turn b io (times d T)
  | o => o

/-- the same observation, `d` later -/
def obs (d : Nat) : Obs → Obs
  | .wrote p start stop => .wrote p (start + d) (stop + d)
  | .connected c t => .connected c (t + d)
  | o => o

end Mqrstt.Spec.Later
