import Verif.Spec.Codes
import Verif.Spec.VarInt
/-!
# Frames

The bytes of one packet on the wire (MQTT v5, section 2): a first byte allowed for the packet type, the
length of the body as a variable byte integer, and the body.
-/

namespace Spec
open Mqrstt

/-- `f` is one whole packet of type `t`, as far as the framing goes -/
def IsFrame (t : PacketType) (f : Bytes) : Prop :=
  ∃ first len body, f = first :: (len ++ body) ∧ FirstByteAllowed t first ∧ IsVbi len ∧
    vbiValue len = body.length

end Spec
