import Verif.Model.Packet
/-!
# Tables from the MQTT v5 specification

First bytes (section 2.1), reason codes (section 2.4 and the packet sections), subscription options
(section 3.8.3.1), written as numbers.
-/

namespace Spec
open Mqrstt

/-- the packet type number, table 2-1 -/
def typeNumber : PacketType → Nat
  | .connect => 1 | .connAck => 2 | .publish => 3 | .pubAck => 4 | .pubRec => 5 | .pubRel => 6
  | .pubComp => 7 | .subscribe => 8 | .subAck => 9 | .unsubscribe => 10 | .unsubAck => 11
  | .pingReq => 12 | .pingResp => 13 | .disconnect => 14 | .auth => 15

/-- the mandated flag bits, table 2-2; `none`: the flags carry information -/
def mandatedFlags : PacketType → Option Nat
  | .publish => none
  | .pubRel => some 2 | .subscribe => some 2 | .unsubscribe => some 2
  | _ => some 0

/-- `v` may start a packet of type `t` -/
def FirstByteAllowed (t : PacketType) (v : UInt8) : Prop :=
  v.toNat / 16 = typeNumber t ∧ ∀ f, mandatedFlags t = some f → v.toNat % 16 = f

/-- the low four bits of the first byte of a PUBLISH: DUP, QoS, RETAIN -/
def publishFlags (dup : Bool) (qos : QoS) (retain : Bool) : Nat :=
  (if dup then 8 else 0) +
    2 * (match qos with | .atMostOnce => 0 | .atLeastOnce => 1 | .exactlyOnce => 2) +
    (if retain then 1 else 0)

/-- the reason codes of each packet type (3.2.2.2, 3.4.2.1, 3.5.2.1, 3.6.2.1, 3.7.2.1, 3.9.3, 3.11.3,
3.14.2.1, 3.15.2.1) -/
def reasonCodes : PacketType → List UInt8
  | .connAck => [0x00, 0x80, 0x81, 0x82, 0x83, 0x84, 0x85, 0x86, 0x87, 0x88, 0x89, 0x8A, 0x8C,
      0x90, 0x95, 0x97, 0x99, 0x9A, 0x9B, 0x9C, 0x9D, 0x9F]
  | .pubAck => [0x00, 0x10, 0x80, 0x83, 0x87, 0x90, 0x91, 0x97, 0x99]
  | .pubRec => [0x00, 0x10, 0x80, 0x83, 0x87, 0x90, 0x91, 0x97, 0x99]
  | .pubRel => [0x00, 0x92]
  | .pubComp => [0x00, 0x92]
  | .subAck => [0x00, 0x01, 0x02, 0x80, 0x83, 0x87, 0x8F, 0x91, 0x97, 0x9E, 0xA1, 0xA2]
  | .unsubAck => [0x00, 0x11, 0x80, 0x83, 0x87, 0x8F, 0x91]
  | .disconnect => [0x00, 0x04, 0x80, 0x81, 0x82, 0x83, 0x87, 0x89, 0x8B, 0x8D, 0x8E, 0x8F,
      0x90, 0x93, 0x94, 0x95, 0x96, 0x97, 0x98, 0x99, 0x9A, 0x9B, 0x9C, 0x9D, 0x9E, 0x9F, 0xA0,
      0xA1, 0xA2]
  | .auth => [0x00, 0x18, 0x19]
  | _ => []

/-- the list of names used by the code for each packet type -/
def codeNames : PacketType → List Reason
  | .connAck => Reason.connAck | .pubAck => Reason.pubAck | .pubRec => Reason.pubRec
  | .pubRel => Reason.pubRel | .pubComp => Reason.pubComp | .subAck => Reason.subAck
  | .unsubAck => Reason.unsubAck | .disconnect => Reason.disconnect | .auth => Reason.auth
  | _ => []

/-- the subscription options byte: QoS in bits 0-1, no local in bit 2, retain as published in bit 3,
retain handling in bits 4-5, bits 6-7 zero -/
def subOptionsByte (o : SubOptions) : Nat :=
  (match o.qos with | .atMostOnce => 0 | .atLeastOnce => 1 | .exactlyOnce => 2) +
    (if o.noLocal then 4 else 0) + (if o.retainAsPublish then 8 else 0) +
    16 * (match o.retainHandling with | .zero => 0 | .one => 1 | .two => 2)

end Spec
