import Verif.Model.Display
import Verif.Spec.Wire
import Verif.Spec.Options
/-!
# What the text of a packet is about
-/

namespace Mqrstt.Spec
open _root_.Spec

/-- what the text of a packet tells its reader -/
inductive Shown where
  | connect (clean : Bool) (username password : Option Str) (keepAlive : UInt16) (clientId : Str)
  | connAck (sessionPresent : Bool) (reason : Reason)
  | publish (topic : Str) (qos : QoS) (dup retain : Bool) (id : Option UInt16)
  | ack (type : PacketType) (id : UInt16) (reason : Reason)
  | disconnect (reason : Reason)
  /-- only the type of the packet -/
  | only (type : PacketType)

/-- what there is to tell of a packet -/
def shown : Packet → Shown
  | .connect c => .connect c.cleanStart c.username c.password c.keepAlive c.clientId
  | .connAck c => .connAck c.sessionPresent c.reason
  | .publish m => .publish m.topic m.qos m.dup m.retain m.pkid
  | .pubAck a => .ack .pubAck a.id a.reason
  | .pubRec a => .ack .pubRec a.id a.reason
  | .pubRel a => .ack .pubRel a.id a.reason
  | .pubComp a => .ack .pubComp a.id a.reason
  | .subscribe _ => .only .subscribe
  | .subAck _ => .only .subAck
  | .unsubscribe _ => .only .unsubscribe
  | .unsubAck _ => .only .unsubAck
  | .pingReq => .only .pingReq
  | .pingResp => .only .pingResp
  | .disconnect d => .disconnect d.reason
  | .auth _ => .only .auth

/-- the type of a packet and its reason code, if it has exactly one and is not AUTH -/
def codeOf : Packet → Option (PacketType × Reason)
  | .connAck c => some (.connAck, c.reason)
  | .pubAck a => some (.pubAck, a.reason)
  | .pubRec a => some (.pubRec, a.reason)
  | .pubRel a => some (.pubRel, a.reason)
  | .pubComp a => some (.pubComp, a.reason)
  | .disconnect d => some (.disconnect, d.reason)
  | _ => none

/-- the name MQTT gives to a reason code in packets of a type, table 2-6 -/
def codeTitle (t : PacketType) (code : UInt8) : String :=
  match code.toNat with
  | 0x00 => match t with | .disconnect => "Normal disconnection" | .subAck => "Granted QoS 0" | _ => "Success"
  | 0x01 => "Granted QoS 1"
  | 0x02 => "Granted QoS 2"
  | 0x04 => "Disconnect with Will Message"
  | 0x10 => "No matching subscribers"
  | 0x11 => "No subscription existed"
  | 0x18 => "Continue authentication"
  | 0x19 => "Re-authenticate"
  | 0x80 => "Unspecified error"
  | 0x81 => "Malformed Packet"
  | 0x82 => "Protocol Error"
  | 0x83 => "Implementation specific error"
  | 0x84 => "Unsupported Protocol Version"
  | 0x85 => "Client Identifier not valid"
  | 0x86 => "Bad User Name or Password"
  | 0x87 => "Not authorized"
  | 0x88 => "Server unavailable"
  | 0x89 => "Server busy"
  | 0x8A => "Banned"
  | 0x8B => "Server shutting down"
  | 0x8C => "Bad authentication method"
  | 0x8D => "Keep Alive timeout"
  | 0x8E => "Session taken over"
  | 0x8F => "Topic Filter invalid"
  | 0x90 => "Topic Name invalid"
  | 0x91 => "Packet Identifier in use"
  | 0x92 => "Packet Identifier not found"
  | 0x93 => "Receive Maximum exceeded"
  | 0x94 => "Topic Alias invalid"
  | 0x95 => "Packet too large"
  | 0x96 => "Message rate too high"
  | 0x97 => "Quota exceeded"
  | 0x98 => "Administrative action"
  | 0x99 => "Payload format invalid"
  | 0x9A => "Retain not supported"
  | 0x9B => "QoS not supported"
  | 0x9C => "Use another server"
  | 0x9D => "Server moved"
  | 0x9E => "Shared Subscriptions not supported"
  | 0x9F => "Connection rate exceeded"
  | 0xA0 => "Maximum connect time"
  | 0xA1 => "Subscription Identifiers not supported"
  | 0xA2 => "Wildcard Subscriptions not supported"
  | _ => ""

/-- the letters and digits of a text, in lower case -/
def letters (bs : Bytes) : Bytes :=
  bs.filterMap fun b =>
    if 97 ≤ b ∧ b ≤ 122 ∨ 48 ≤ b ∧ b ≤ 57 then some b else if 65 ≤ b ∧ b ≤ 90 then some (b + 32) else none

/-- `t` names the reason code as MQTT does, but for spaces, hyphens and capitals -/
def Names (t : Bytes) (type : PacketType) (r : Reason) : Prop :=
  letters t = letters (text (codeTitle type (reasonNumber r)))

/-- the title MQTT gives to a level of QoS, section 4.3 -/
def qosTitle : Nat → String
  | 0 => "At most once"
  | 1 => "At least once"
  | 2 => "Exactly once"
  | _ => ""

/-- a number in decimal digits -/
def Decimal (bs : Bytes) (n : Nat) : Prop :=
  bs ≠ [] ∧ (∀ b ∈ bs, 48 ≤ b.toNat ∧ b.toNat ≤ 57) ∧ bs.foldl (fun n b => 10 * n + (b.toNat - 48)) 0 = n

/-- a Boolean in words -/
def Truth (bs : Bytes) (b : Bool) : Prop := bs = text (match b with | true => "true" | false => "false")

/-- the value of a hexadecimal digit -/
def hexDigit (b : UInt8) : Nat := if b.toNat ≤ 57 then b.toNat - 48 else b.toNat - 87

/-- what stands between the quotes of a string literal of Rust -/
def unescape : Bytes → Option Bytes
  | [] => some []
  | 92 :: 48 :: r => (unescape r).map (0 :: ·)
  | 92 :: 116 :: r => (unescape r).map (9 :: ·)
  | 92 :: 110 :: r => (unescape r).map (10 :: ·)
  | 92 :: 114 :: r => (unescape r).map (13 :: ·)
  | 92 :: 34 :: r => (unescape r).map (34 :: ·)
  | 92 :: 92 :: r => (unescape r).map (92 :: ·)
  | 92 :: 117 :: 123 :: a :: 125 :: r => (unescape r).map (UInt8.ofNat (hexDigit a) :: ·)
  | 92 :: 117 :: 123 :: a :: b :: 125 :: r => (unescape r).map (UInt8.ofNat (16 * hexDigit a + hexDigit b) :: ·)
  | b :: r => if b = 92 ∨ b = 34 then none else (unescape r).map (b :: ·)

/-- a string as a literal -/
def Literal (bs : Bytes) (s : Str) : Prop := ∃ inner, bs = text "\"" ++ inner ++ text "\"" ∧ unescape inner = some s.bytes

/-- a value that may be absent -/
def Optional {α : Type} (means : Bytes → α → Prop) (bs : Bytes) : Option α → Prop
  | none => bs = text "None"
  | some a => ∃ inner, bs = text "Some(" ++ inner ++ text ")" ∧ means inner a

end Mqrstt.Spec
