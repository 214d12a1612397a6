import Verif.Spec.Wire
import Verif.Spec.Bytes
import Verif.Spec.ShortForms
import Verif.Spec.Exceptions
/-!
# What a conforming server sends

A sequence of packets on the wire is `ListSays says packets bytes` (Spec/Wire.lean), with `says` for each of them.
-/

namespace Spec
open Mqrstt

/-- a packet that a server may send (2.1.2) -/
def ServerSends : Packet → Prop
  | .connect _ | .subscribe _ | .unsubscribe _ | .pingReq => False
  | _ => True

/-- `bs` is the packet `p` on the wire, from a server -/
def FromServer (p : Packet) (bs : Bytes) : Prop := ServerSends p ∧ PacketSays p bs

/-- PUBREC and DISCONNECT without a property length, AUTH without a reason code: packets in which a reader that does not
look at the length of the packet reads on into the next one -/
def OpenEnded : Packet → Bytes → Prop
  | .pubRec _, bs => bs.length = 5
  | .disconnect _, bs => bs.length = 3
  | .auth _, bs => bs.length = 2
  | _, _ => False

/-- a packet from a server, but none of those the readers refuse: no SUBACK with a reason string, none of the short forms of
`Misread` -/
def Readable (p : Packet) (bs : Bytes) : Prop := FromServer p bs ∧ ¬ SubAckReason p ∧ ¬ Misread p bs

end Spec
