import Verif.Spec.Frame
/-!
# Headers that cannot begin a packet
-/

namespace Spec
open Mqrstt

/-- At least two bytes, and either the first byte is none that MQTT defines, or the four bytes after it
all announce another byte of the length. -/
def BadHeader (b : Bytes) : Prop :=
  ∃ first second rest, b = first :: second :: rest ∧
    ((∀ t, ¬ FirstByteAllowed t first) ∨ (3 ≤ rest.length ∧ ∀ x ∈ (second :: rest).take 4, more x))

end Spec
