import Verif.Model.Acks
import Verif.Model.Publish
import Verif.Model.Connect
/-!
# The packet enum, fixed header and framing

Source: `/repo/mqrstt/src/packets/mod.rs`, `/repo/mqrstt/src/packets/primitive/fixed_header.rs`.
-/

namespace Mqrstt

/-- `Packet`, packets/mod.rs 47-63 -/
inductive Packet where
  | connect (p : Connect)
  | connAck (p : ConnAck)
  | publish (p : Publish)
  | pubAck (p : Ack)
  | pubRec (p : Ack)
  | pubRel (p : Ack)
  | pubComp (p : Ack)
  | subscribe (p : Subscribe)
  | subAck (p : CodesAck)
  | unsubscribe (p : Unsubscribe)
  | unsubAck (p : CodesAck)
  | pingReq
  | pingResp
  | disconnect (p : ReasonProps)
  | auth (p : ReasonProps)

/-- `PacketType::from_first_byte`, packets/mod.rs 417-437 -/
def PacketType.fromFirstByte (v : UInt8) : Except DeErr (PacketType × UInt8) :=
  let hi := (v >>> 4).toNat
  let lo := v &&& 0x0f
  match hi, lo.toNat with
  | 1, 0 => .ok (.connect, 0)
  | 2, 0 => .ok (.connAck, 0)
  | 3, _ => .ok (.publish, lo)
  | 4, 0 => .ok (.pubAck, 0)
  | 5, 0 => .ok (.pubRec, 0)
  | 6, 2 => .ok (.pubRel, 0)
  | 7, 0 => .ok (.pubComp, 0)
  | 8, 2 => .ok (.subscribe, 0)
  | 9, 0 => .ok (.subAck, 0)
  | 10, 2 => .ok (.unsubscribe, 0)
  | 11, 0 => .ok (.unsubAck, 0)
  | 12, 0 => .ok (.pingReq, 0)
  | 13, 0 => .ok (.pingResp, 0)
  | 14, 0 => .ok (.disconnect, 0)
  | 15, 0 => .ok (.auth, 0)
  | _, _ => .error (.unknownFixedHeader v)

/-- `FixedHeader`, fixed_header.rs 25-30 -/
structure FixedHeader where
  type : PacketType
  flags : UInt8
  remLen : Nat

/-- `FixedHeader::read_fixed_header`, fixed_header.rs 33-47; works on an iterator and consumes
nothing. Returns the header and its length. -/
def FixedHeader.read (b : Bytes) : Except ReadBytes (FixedHeader × Nat) :=
  if b.length < 2 then .error (.insufficientBytes (2 - b.length))
  else match b with
  | [] => .error (.err .panic) -- `header.next().unwrap()`; excluded by the test above
  | first :: rest =>
    match PacketType.fromFirstByte first with
    | .error e => .error (.err (.de e))
    | .ok (t, flags) =>
      match VarInt.remLen rest with
      | .error e => .error e
      | .ok (n, k) => .ok (⟨t, flags, n⟩, 1 + k)

/-- `FixedHeader::async_read`, fixed_header.rs 49-59 -/
def FixedHeader.asyncRead : Rd (FixedHeader × Nat) := do
  let first ← aU8
  let (t, flags) ← Rd.lift (PacketType.fromFirstByte first)
  let (n, k) ← VarInt.asyncRead
  pure (⟨t, flags, n⟩, 1 + k)

namespace Packet

/-- `packet_type`, packets/mod.rs 66-84 -/
def type : Packet → PacketType
  | connect _ => .connect | connAck _ => .connAck | publish _ => .publish | pubAck _ => .pubAck
  | pubRec _ => .pubRec | pubRel _ => .pubRel | pubComp _ => .pubComp
  | subscribe _ => .subscribe | subAck _ => .subAck | unsubscribe _ => .unsubscribe
  | unsubAck _ => .unsubAck | pingReq => .pingReq | pingResp => .pingResp
  | disconnect _ => .disconnect | auth _ => .auth

/-- the first byte of a PUBLISH, packets/mod.rs 99-109, 192-202 -/
def publishFirstByte (p : Publish) : UInt8 :=
  let b : UInt8 := 0b00110000
  let b := if p.dup then b ||| 0b1000 else b
  let b := b ||| (p.qos.toU8 <<< 1)
  if p.retain then b ||| 0b0001 else b

/-- the first byte written by `write` and `async_write`, packets/mod.rs 86-174, 176-270 -/
def firstByte : Packet → UInt8
  | connect _ => 0b00010000 | connAck _ => 0b00100000 | publish p => publishFirstByte p
  | pubAck _ => 0b01000000 | pubRec _ => 0b01010000 | pubRel _ => 0b01100010
  | pubComp _ => 0b01110000 | subscribe _ => 0b10000010 | subAck _ => 0b10010000
  | unsubscribe _ => 0b10100010 | unsubAck _ => 0b10110000 | pingReq => 0b11000000
  | pingResp => 0b11010000 | disconnect _ => 0b11100000 | auth _ => 0b11110000

/-- the packet's own `wire_len` (without the fixed header); for PINGREQ and PINGRESP the literal 0
written as remaining length, packets/mod.rs 86-174 -/
def bodyWireLen : Packet → Nat
  | connect p => p.wireLen | connAck p => p.wireLen | publish p => p.wireLen
  | pubAck p => p.wireLen | pubRec p => p.wireLen | pubRel p => p.wireLen
  | pubComp p => p.wireLen | subscribe p => p.wireLen
  | subAck p => p.wireLen subscribeEntries | unsubscribe p => p.wireLen
  | unsubAck p => p.wireLen ackEntries | pingReq => 0 | pingResp => 0
  | disconnect p => Disconnect.wireLen p | auth p => Auth.wireLen p

/-- the packet's own `write`, packets/mod.rs 86-174 -/
def bodyWrite : Packet → Wr
  | connect p => p.write | connAck p => p.write | publish p => p.write
  | pubAck p => p.write | pubRec p => p.write | pubRel p => p.write
  | pubComp p => p.write | subscribe p => p.write
  | subAck p => p.write subscribeEntries | unsubscribe p => p.write
  | unsubAck p => p.write ackEntries | pingReq => .ok [] | pingResp => .ok []
  | disconnect p => Disconnect.write p | auth p => Auth.write p

/-- the packet's own `async_write`, packets/mod.rs 176-270 -/
def bodyAsyncWrite : Packet → AWr
  | connect p => p.asyncWrite | connAck p => p.asyncWrite | publish p => p.asyncWrite
  | pubAck p => p.asyncWrite | pubRec p => p.asyncWrite | pubRel p => p.asyncWrite
  | pubComp p => p.asyncWrite | subscribe p => p.asyncWrite
  | subAck p => p.asyncWrite subscribeEntries | unsubscribe p => p.asyncWrite
  | unsubAck p => p.asyncWrite ackEntries | pingReq => .ok ([], 0) | pingResp => .ok ([], 0)
  | disconnect p => Disconnect.asyncWrite p | auth p => Auth.asyncWrite p

/-- the remaining length as written: for PINGREQ and PINGRESP a literal 0 byte
(packets/mod.rs 154-161), otherwise `wire_len().write_variable_integer` -/
def lenWrite : Packet → Wr
  | pingReq => .ok [0]
  | pingResp => .ok [0]
  | p => VarInt.write p.bodyWireLen

/-- async counterpart (packets/mod.rs 249-258) -/
def lenAsyncWrite : Packet → AWr
  | pingReq => .ok ([0], 1)
  | pingResp => .ok ([0], 1)
  | p => VarInt.asyncWrite p.bodyWireLen

/-- `Packet::write`, packets/mod.rs 86-174 -/
def write (p : Packet) : Wr := (.ok [p.firstByte] : Wr) ++ p.lenWrite ++ p.bodyWrite

/-- `Packet::async_write`, packets/mod.rs 176-270 -/
def asyncWrite (p : Packet) : AWr :=
  (.ok ([p.firstByte], 1) : AWr) ++ p.lenAsyncWrite ++ p.bodyAsyncWrite

/-- `Packet::wire_len`, packets/mod.rs 375-395 -/
def wireLen : Packet → Nat
  | pingReq => 2
  | pingResp => 2
  | p => 1 + VarInt.len p.bodyWireLen + p.bodyWireLen

/-- `Result::map` on a reader, packets/mod.rs 272-291 -/
def _root_.Mqrstt.Rd.map {α β} (f : α → β) (r : Rd α) : Rd β := do pure (f (← r))

/-- the readers dispatched to by `read_packet`, packets/mod.rs 272-291 -/
def bodyRead (h : FixedHeader) : Rd Packet :=
  match h.type with
  | .connect => Rd.map connect Connect.read
  | .connAck => Rd.map connAck (ConnAck.read h.remLen)
  | .publish => Rd.map publish (Publish.read h.flags)
  | .pubAck => Rd.map pubAck (Ack.readPubAck h.remLen)
  | .pubRec => Rd.map pubRec (Ack.readPubRec h.remLen)
  | .pubRel => Rd.map pubRel (Ack.readPubRel h.remLen)
  | .pubComp => Rd.map pubComp (Ack.readPubComp h.remLen)
  | .subscribe => Rd.map subscribe Subscribe.read
  | .subAck => Rd.map subAck (CodesAck.readSubAck h.remLen)
  | .unsubscribe => Rd.map unsubscribe Unsubscribe.read
  | .unsubAck => Rd.map unsubAck (CodesAck.readUnsubAck h.remLen)
  | .pingReq => pure pingReq
  | .pingResp => pure pingResp
  | .disconnect => Rd.map disconnect (Disconnect.read h.remLen)
  | .auth => Rd.map auth Auth.read

/-- `read_packet`, packets/mod.rs 272-291: `buf` is dropped with whatever was not read -/
def readPacket (h : FixedHeader) (buf : Bytes) : Except Fail Packet :=
  match bodyRead h buf with
  | .ok (p, _) => .ok p
  | .error e => .error e

/-- `Packet::read`, packets/mod.rs 329-342: result and what remains in the buffer -/
def read (buffer : Bytes) : Except ReadBytes Packet × Bytes :=
  match FixedHeader.read buffer with
  | .error e => (.error e, buffer)
  | .ok (h, hl) =>
    if h.remLen + hl > buffer.length then
      (.error (.insufficientBytes (h.remLen + hl - buffer.length)), buffer)
    else
      let rest := buffer.drop hl
      (match readPacket h (rest.take h.remLen) with
        | .ok p => .ok p
        | .error e => .error (.err e), rest.drop h.remLen)

/-- `async_read_packet`, packets/mod.rs 293-315; the byte count is dropped (`.0`) -/
def asyncReadPacket (h : FixedHeader) : Rd Packet :=
  match h.type with
  | .connect => Rd.map (fun x => connect x.1) Connect.asyncRead
  | .connAck => Rd.map (fun x => connAck x.1) ConnAck.asyncRead
  | .publish => Rd.map (fun x => publish x.1) (Publish.asyncRead h.flags h.remLen)
  | .pubAck => Rd.map (fun x => pubAck x.1) (Ack.asyncReadPubAck h.remLen)
  | .pubRec => Rd.map (fun x => pubRec x.1) (Ack.asyncReadPubRec h.remLen)
  | .pubRel => Rd.map (fun x => pubRel x.1) (Ack.asyncReadPubRel h.remLen)
  | .pubComp => Rd.map (fun x => pubComp x.1) (Ack.asyncReadPubComp h.remLen)
  | .subscribe => Rd.map (fun x => subscribe x.1) (Subscribe.asyncRead h.remLen)
  | .subAck => Rd.map (fun x => subAck x.1) (CodesAck.asyncReadSubAck h.remLen)
  | .unsubscribe => Rd.map (fun x => unsubscribe x.1) (Unsubscribe.asyncRead h.remLen)
  | .unsubAck => Rd.map (fun x => unsubAck x.1) (CodesAck.asyncReadUnsubAck h.remLen)
  | .pingReq => pure pingReq
  | .pingResp => pure pingResp
  | .disconnect => Rd.map (fun x => disconnect x.1) (Disconnect.asyncRead h.remLen)
  | .auth => Rd.map (fun x => auth x.1) Auth.asyncRead

/-- `Packet::async_read`, packets/mod.rs 317-327 -/
def asyncRead : Rd Packet := do
  let (h, _) ← FixedHeader.asyncRead
  asyncReadPacket h

end Packet
end Mqrstt
