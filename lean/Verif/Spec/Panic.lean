import Verif.Spec.Progress
import Verif.Spec.Truncated
import Verif.Spec.Bytes
import Verif.Spec.Codes
/-!
# What makes `run` and `connect` panic (C117)
-/

namespace Mqrstt.Spec

/-- a PUBACK or PUBREC with an identifier that no publish can have: 0, or above the receive maximum of the client -/
def NoSlot (o : Options) : Packet → Prop
  | .pubAck a | .pubRec a => a.id = 0 ∨ o.receiveMaximum.toNat < a.id.toNat
  | _ => False

/-- the bytes start with a whole packet, as far as the fixed header tells -/
def HoldsPacket (b : Bytes) : Prop :=
  ∃ t first len body rest, b = first :: (len ++ (body ++ rest)) ∧ _root_.Spec.FirstByteAllowed t first ∧
    _root_.Spec.IsVbi len ∧ _root_.Spec.vbiValue len = body.length

/-- the bytes are the beginning of a packet of which fewer bytes are missing than its fixed header has -/
def NearlyWhole (b : Bytes) : Prop :=
  ∃ t first len body, b = first :: (len ++ body) ∧ _root_.Spec.FirstByteAllowed t first ∧ _root_.Spec.IsVbi len ∧
    body.length < _root_.Spec.vbiValue len ∧ _root_.Spec.vbiValue len < body.length + (1 + len.length)

/-- what has arrived on the connection and has not been processed -/
def Left (r : Rx) (rest : Bytes) : Prop := Stream BufferPacket r.bytes r.packets rest

end Mqrstt.Spec
