import Verif.Model.Packet
/-!
# Short forms of packets

MQTT v5 lets the sender leave out the property length, and the reason code too when it is Success
(3.4.2.1, 3.4.2.2.1, 3.5.2.2.1, 3.6.2.2.1, 3.7.2.2.1, 3.14.2.1, 3.14.2.2.1, 3.15.2.1).
-/

namespace Spec
open Mqrstt

/-- the four publish acknowledgements: constructor, first byte, reason codes -/
def ackKinds : List ((Ack → Packet) × UInt8 × List Reason) :=
  [(.pubAck, 0x40, Reason.pubAck), (.pubRec, 0x50, Reason.pubRec), (.pubRel, 0x62, Reason.pubRel),
   (.pubComp, 0x70, Reason.pubComp)]

/-- `bs` is a legal way to send the property-less packet `p` -/
inductive ShortForm : Packet → Bytes → Prop
  /-- no reason code: Success -/
  | ackId {mk first codes} (h : (mk, first, codes) ∈ ackKinds) (id : UInt16) :
      ShortForm (mk ⟨id, .success, .empty⟩) ([first, 2] ++ u16Bytes id)
  /-- no property length -/
  | ackReason {mk first codes} (h : (mk, first, codes) ∈ ackKinds) (id : UInt16) (c : Reason)
      (hc : c ∈ codes) : ShortForm (mk ⟨id, c, .empty⟩) ([first, 3] ++ u16Bytes id ++ [c.toU8])
  /-- property length zero -/
  | ackFull {mk first codes} (h : (mk, first, codes) ∈ ackKinds) (id : UInt16) (c : Reason)
      (hc : c ∈ codes) : ShortForm (mk ⟨id, c, .empty⟩) ([first, 4] ++ u16Bytes id ++ [c.toU8, 0])
  /-- no reason code: normal disconnection -/
  | disconnect0 : ShortForm (.disconnect ⟨.normalDisconnection, .empty⟩) [0xE0, 0]
  /-- no property length -/
  | disconnect1 (c : Reason) (hc : c ∈ Reason.disconnect) :
      ShortForm (.disconnect ⟨c, .empty⟩) [0xE0, 1, c.toU8]
  /-- property length zero -/
  | disconnect2 (c : Reason) (hc : c ∈ Reason.disconnect) :
      ShortForm (.disconnect ⟨c, .empty⟩) [0xE0, 2, c.toU8, 0]
  /-- no reason code: Success -/
  | auth0 : ShortForm (.auth ⟨.success, .empty⟩) [0xF0, 0]
  /-- property length zero -/
  | auth2 (c : Reason) (hc : c ∈ Reason.auth) : ShortForm (.auth ⟨c, .empty⟩) [0xF0, 2, c.toU8, 0]

/-- the short forms the code does not understand: PUBREC and PUBCOMP without a property length,
DISCONNECT without a property length, AUTH without a reason code -/
def Misread : Packet → Bytes → Prop
  | .pubRec _, bs | .pubComp _, bs => bs.length = 5
  | .disconnect _, bs => bs.length = 3
  | .auth _, bs => bs.length = 2
  | _, _ => False

end Spec
