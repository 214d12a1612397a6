import Verif.Model.Drop
/-!
# Histories in which every step can happen (C122)
-/

namespace Mqrstt.Spec

/-- every step of the history can happen where it stands (`history` passes over steps that cannot) -/
def Possible (s : SmolWire) : List SmolWireOp → Prop
  | [] => True
  | op :: ops => ∃ s' obs, s.step op = some (s', obs) ∧ Possible s' ops

end Mqrstt.Spec
