import Verif.Conformance.Packets
/-!
# The repository's tests of single packets, run against the model

Source: the test modules at the end of `/repo/mqrstt/src/packets/*/mod.rs`. The tests work on packet bodies, without
the fixed header.
-/

namespace Mqrstt.Conformance
open Mqrstt PropertyType

/-- read a body, write it again -/
def bodyAgain (t : PacketType) (flags : UInt8) (remLen : Nat) (b : Bytes) : Option Bytes :=
  match Packet.bodyRead ⟨t, flags, remLen⟩ b with
  | .ok (p, _) => match p.bodyWrite with | .ok b' => some b' | .error _ => none
  | .error _ => none

/-- read a body with the async reader, write it again -/
def bodyAsyncAgain (t : PacketType) (flags : UInt8) (remLen : Nat) (b : Bytes) : Option Bytes :=
  match Packet.asyncReadPacket ⟨t, flags, remLen⟩ b with
  | .ok (p, _) => match p.bodyWrite with | .ok b' => some b' | .error _ => none
  | .error _ => none

/-- the packet read from a body -/
def bodyIs (t : PacketType) (flags : UInt8) (remLen : Nat) (b : Bytes) (p : Packet) : Bool :=
  match Packet.bodyRead ⟨t, flags, remLen⟩ b with
  | .ok (q, _) => q == p
  | .error _ => false

/-- a body written, and its length -/
def written (p : Packet) (n : Nat) : Bool :=
  p.bodyWireLen = n && (match p.bodyWrite with | .ok b => b.length = n | .error _ => false)

def str' (x : String) : Bytes := strBytes (txt x)

/-! ## PUBACK, PUBREC, PUBREL, PUBCOMP -/

/-- the properties used in the tests of all four -/
def ackProps : Bytes :=
  [0x1f] ++ str' "reason string, test 1-2-3." ++ [0x26] ++ str' "This is the key" ++ str' "This is the value" ++
  [0x26] ++ str' "Another thingy" ++ str' "The thingy"
/-- the same with their length in front -/
def ackPropsLen : Bytes := UInt8.ofNat ackProps.length :: ackProps

example : ackProps.length < 128 := by decide +kernel

/-- `test_wire_len` of the four -/
example : written (.pubAck ⟨12, .success, .empty⟩) 2 ∧ written (.pubAck ⟨12, .notAuthorized, .empty⟩) 3 ∧
    written (.pubRec ⟨12, .success, .empty⟩) 2 ∧ written (.pubRec ⟨12, .implementationSpecificError, .empty⟩) 3 ∧
    written (.pubRel ⟨12, .success, .empty⟩) 2 ∧ written (.pubRel ⟨12, .packetIdentifierNotFound, .empty⟩) 3 ∧
    written (.pubComp ⟨12, .success, .empty⟩) 2 ∧ written (.pubComp ⟨12, .packetIdentifierNotFound, .empty⟩) 3 := by
  decide +kernel

/-- `test_read_non_success_puback` -/
example : bodyIs .pubAck 0 3 [0x00, 0x0C, 0x87] (.pubAck ⟨12, .notAuthorized, .empty⟩) = true := by decide +kernel

/-- `test_read_simple_puback`, `..._pub_rec`, `..._pub_rel`, `..._pub_comp` -/
example : bodyIs .pubAck 0 4 [0, 12, 0, 0] (.pubAck ⟨12, .success, .empty⟩) ∧
    bodyIs .pubRec 0 4 [0, 12, 0, 0] (.pubRec ⟨12, .success, .empty⟩) ∧
    bodyIs .pubRel 0 4 [0, 12, 0, 0] (.pubRel ⟨12, .success, .empty⟩) ∧
    bodyIs .pubComp 0 4 [0, 12, 0, 0] (.pubComp ⟨12, .success, .empty⟩) := by decide +kernel

/-- `test_read_write_..._with_properties` -/
example : ([(.pubAck, 0x99), (.pubRec, 0x99), (.pubRel, 0x92), (.pubComp, 0x92)] : List (PacketType × UInt8)).all
    (fun x =>
      let b := [0xff, 0xff, x.2] ++ ackPropsLen
      bodyAgain x.1 0 b.length b = some b) = true := by decide +kernel

/-- `test_async_read_write_pubrel_with_properties` -/
example : (let b := [0xff, 0xff, 0x92] ++ ackPropsLen; bodyAsyncAgain .pubRel 0 b.length b = some b) := by
  decide +kernel

/-- `test_properties` -/
example : [pubAckSync, pubRecSync, pubRelSync, pubCompSync].all (fun sp =>
    match Props.syncRead sp ackPropsLen with
    | .ok (P, _) => P.syncWrite ackEntries ackEntries .skip == .ok ackPropsLen
    | .error _ => false) = true := by decide +kernel

/-- `test_async_read_properties` -/
example : (match Props.asyncRead ackEntries ackPropsLen with
    | .ok ((P, n), _) => P.syncWrite ackEntries ackEntries .skip == .ok ackPropsLen && n = ackPropsLen.length
    | .error _ => false) = true := by decide +kernel

/-- `no_reason_code_or_props` -/
example : [PacketType.pubAck, .pubRec, .pubRel, .pubComp].all (fun t => bodyAgain t 0 2 [0xff, 0xff] = some [0xff, 0xff])
    = true := by decide +kernel
example : bodyIs .pubAck 0 2 [0xff, 0xff] (.pubAck ⟨65535, .success, .empty⟩) ∧
    bodyIs .pubRec 0 2 [0xff, 0xff] (.pubRec ⟨65535, .success, .empty⟩) ∧
    bodyIs .pubRel 0 2 [0xff, 0xff] (.pubRel ⟨65535, .success, .empty⟩) ∧
    bodyIs .pubComp 0 2 [0xff, 0xff] (.pubComp ⟨65535, .success, .empty⟩) := by decide +kernel

/-- `test_wire_len2` -/
example : (let P := { Props.empty.set reasonString (txt "reason string, test 1-2-3.") with
      users := [user "This is the key" "This is the value", user "Another thingy" "The thingy"] }
    match P.syncWrite ackEntries ackEntries .skip with
    | .ok b => b.length = P.wireLen ackEntries + VarInt.len (P.wireLen ackEntries)
    | .error _ => false) = true := by decide +kernel

/-- `test_read_short`, `test_async_read_short`, `test_async_read_simple_pub_rel` -/
example : bodyIs .pubRel 0 2 [0, 12] (.pubRel ⟨12, .success, .empty⟩) ∧
    bodyIs .pubRel 0 3 [0, 12, 0x92] (.pubRel ⟨12, .packetIdentifierNotFound, .empty⟩) := by decide +kernel
example : (Ack.asyncReadPubRel 2 [0, 12] == .ok ((⟨12, .success, .empty⟩, 2), [])) ∧
    (Ack.asyncReadPubRel 3 [0, 12, 0x92] == .ok ((⟨12, .packetIdentifierNotFound, .empty⟩, 3), [])) ∧
    (Ack.asyncReadPubRel 4 [0, 12, 0, 0] == .ok ((⟨12, .success, .empty⟩, 4), [])) := by decide +kernel

/-! ## SUBSCRIBE, SUBACK, UNSUBSCRIBE, UNSUBACK -/

/-- `read_write_suback` -/
example : bodyAgain .subAck 0 5 [0x00, 0x0F, 0x00, 0x01, 0x80] = some [0x00, 0x0F, 0x00, 0x01, 0x80] := by
  decide +kernel

/-- `read_write_unsub_ack` -/
example : bodyAgain .unsubAck 0xb0 4 [0x35, 0xd7, 0x00, 0x00] = some [0x35, 0xd7, 0x00, 0x00] := by decide +kernel

/-- `read_write_unsubscribe` -/
example : (let b := [0x35, 0xd7, 0x00] ++ str' "subscribe/example/test"; bodyAgain .unsubscribe 0 0 b = some b) := by
  decide +kernel

/-- `test_read_write_subscribe` -/
example : (let b := [0x35, 0xd6, 0x02, 0x0b, 0x01] ++ str' "subscribe/example/test" ++ [0x15]
    bodyAgain .subscribe 0 30 b = some b) := by decide +kernel

/-- `test_write` -/
example : (let p := Packet.subscribe ⟨1, .empty, [(txt "test/123", .default)]⟩
    p.bodyWireLen = 14 && p.write == .ok [0x82, 0x0e, 0x00, 0x01, 0x00, 0x00, 0x08, 0x74, 0x65, 0x73, 0x74, 0x2f, 0x31,
      0x32, 0x33, 0x00]) = true := by decide +kernel

/-- `test_subscription_options` -/
example : (match SubOptions.read [0b00101110] with | .ok _ => true | .error _ => false) = true := by decide +kernel

/-! ## PUBLISH -/

/-- `test_read_write_properties` -/
example : (let props : Bytes := [1, 0, 2] ++ u32Bytes 4294967295 ++ [35] ++ u16Bytes 3456 ++ [8] ++ str' "hellogoodbye"
    let b := str' "a/b" ++ [0, 10] ++ [UInt8.ofNat props.length] ++ props ++ [0x01, 0x02, 0xDE, 0xAD, 0xBE]
    bodyAgain .publish (0b00110100 &&& 0b00001111) b.length b = some b) := by decide +kernel

/-- `test_read_write` -/
example : (let b := str' "a/b" ++ [0x00, 0x01, 0x02, 0xDE, 0xAD, 0xBE]
    bodyAgain .publish (0b00110000 &&& 0b00001111) b.length b = some b) := by decide +kernel

/-! ## CONNECT -/

def willBytes : Bytes := [0x00] ++ str' "/a" ++ str' "hello world"
def connectBody : Bytes :=
  str' "MQTT" ++ [0x05, 0b11001110, 0x00, 0x0a, 0x00] ++ str' "test" ++ willBytes ++ str' "user" ++ str' "pass"

/-- `read_connect` -/
example : (bodyAgain .connect 0 0 (connectBody ++ [0xAB, 0xCD, 0xEF])).isSome = true := by decide +kernel

/-- `read_and_write_connect` -/
example : bodyAgain .connect 0 0 connectBody = some connectBody := by decide +kernel

/-- `read_async_and_write_connect` -/
example : bodyAsyncAgain .connect 0 0 connectBody = some connectBody ∧
    (match Connect.asyncRead connectBody with | .ok ((_, n), _) => n = connectBody.length | .error _ => false) = true := by
  decide +kernel

/-- `parsing_last_will`, `parsing_and_writing_last_will` -/
example : (match LastWill.read .atLeastOnce false willBytes with
    | .ok (w, _) => w.write == .ok willBytes
    | .error _ => false) = true := by decide +kernel

/-- `read_and_write_connect2` -/
example : (let b := [0x00, 0x04, 0x4d, 0x51, 0x54, 0x54, 0x05, 0x80, 0x00, 0x3c, 0x05, 0x11, 0xff, 0xff, 0xff, 0xff, 0x00,
      0x05, 0x39, 0x2e, 0x30, 0x2e, 0x31, 0x00, 0x04, 0x54, 0x65, 0x73, 0x74]
    bodyAgain .connect 0 0 b = some b) := by decide +kernel

/-- `connect_flag` -/
example : (match ConnectFlags.fromU8 0b11001110 with | .ok f => f.toU8 = 0b11001110 | .error _ => false) = true := by
  decide +kernel

/-! ## CONNACK -/

/-- `test_wire_len` -/
example : (let P := { Props.empty.set sessionExpiryInterval 60 |>.set receiveMaximum 20
        |>.set maximumQos .atMostOnce |>.set retainAvailable true |>.set maximumPacketSize 1024
        |>.set assignedClientIdentifier (txt "client-12345") |>.set topicAliasMaximum 10
        |>.set reasonString (txt "Connection accepted") |>.set wildcardSubscriptionAvailable true
        |>.set subscriptionIdentifierAvailable true |>.set sharedSubscriptionAvailable true
        |>.set serverKeepAlive 120 |>.set responseInformation (txt "Response info")
        |>.set serverReference (txt "server-reference") |>.set authenticationMethod (txt "auth-method")
        |>.set authenticationData [1, 2, 3, 4] with users := [user "key1" "value1"] }
    match P.syncWrite connAckEntries connAckEntries .strict with
    | .ok b => b.length = P.wireLen connAckEntries + VarInt.len (P.wireLen connAckEntries)
    | .error _ => false) = true := by decide +kernel

/-- `read_write_connack_packet` -/
example : writeRead (.connAck ⟨false, .success, .empty⟩) = true := by decide +kernel

/-- `read_write_connack` -/
example : bodyIs .connAck 0 3 [0x01, 0x00, 0x00] (.connAck ⟨true, .success, .empty⟩) ∧
    bodyAgain .connAck 0 3 [0x01, 0x00, 0x00] = some [0x01, 0x00, 0x00] := by decide +kernel

/-- `read_write_connack_properties`: read, written (56 bytes) and read again gives the same -/
example : (let b : Bytes := [56, 17, 0xff, 0xff, 37, 0x1, 18, 0, 11] ++ raw "KeanuReeves" ++ [36, 2, 34, 0, 255, 31, 0, 29]
      ++ raw "Houston we have got a problem"
    match Props.syncRead connAckSync b with
    | .ok (P, _) => P.wireLen connAckEntries = 56 &&
        (match P.syncWrite connAckEntries connAckEntries .strict with
         | .ok b' => (match Props.syncRead connAckSync b' with | .ok (Q, _) => P == Q | .error _ => false)
         | .error _ => false)
    | .error _ => false) = true := by decide +kernel

/-! ## DISCONNECT -/

def disconnectProps : Props :=
  { Props.empty.set sessionExpiryInterval 123 |>.set reasonString (txt "Some reason")
      |>.set serverReference (txt "Server reference") with users := [user "key1" "value1", user "key2" "value2"] }

/-- `test_write_and_async_read_disconnect`, `test_write_and_read_disconnect` -/
example : (match Disconnect.write ⟨.normalDisconnection, disconnectProps⟩ with
    | .ok b =>
      (match Disconnect.asyncRead b.length b with
       | .ok ((d, n), _) => n = b.length && d.props == disconnectProps
       | .error _ => false) &&
      (match Disconnect.read b.length b with | .ok (d, _) => d.props == disconnectProps | .error _ => false)
    | .error _ => false) = true := by decide +kernel

/-- `test_write_and_read_disconnect_properties` -/
example : (match disconnectProps.syncWrite disconnectEntries disconnectEntries .skip with
    | .ok b => (match Props.syncRead disconnectSync b with | .ok (P, _) => P == disconnectProps | .error _ => false)
    | .error _ => false) = true := by decide +kernel

end Mqrstt.Conformance
