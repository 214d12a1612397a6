import Verif.Model.System
/-!
# Handing out identifiers

For C87.
-/

namespace Mqrstt.Spec

/-- the identifier a call received in this step -/
def handedOut : Event → Option UInt16
  | .called _ id _ => id
  | .rejected _ id _ => id
  | _ => none

end Mqrstt.Spec
