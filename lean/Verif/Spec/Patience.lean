import Verif.Spec.Bytes
import Verif.Spec.Codes
/-! # Bytes that are a packet, may become one, or never will -/

namespace Mqrstt.Spec
open Mqrstt

/-- whatever follows these bytes, they will not be the beginning of a packet -/
def Hopeless (R : Bytes → Packet → Bytes → Prop) (bs : Bytes) : Prop := ∀ more p rest, ¬ R (bs ++ more) p rest

/-- they contain a whole packet -/
def Whole (R : Bytes → Packet → Bytes → Prop) (bs : Bytes) : Prop := ∃ p rest, R bs p rest

/-- no packet of MQTT v5 begins with this byte -/
def BadFirstByte (v : UInt8) : Prop := ∀ t, ¬ _root_.Spec.FirstByteAllowed t v

end Mqrstt.Spec
