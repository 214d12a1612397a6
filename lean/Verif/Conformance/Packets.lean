import Verif.Conformance.Equality
/-!
# The repository's packet tests, run against the model

Source: `/repo/mqrstt/src/tests/test_packets/{mod,test_cases}.rs`, `/repo/mqrstt/src/tests/test_bytes.rs`.

These are tests of the model, not properties: every assertion of the repository's tests is evaluated in the model
(by the kernel). A test passing in Rust and failing here would be a modelling mistake. The one change: the
50,000-byte user property of `pubrel_case2` is shortened to 500 bytes.
-/

namespace Mqrstt.Conformance
open Mqrstt

/-- `test_write_read_write_read_cases`, test_packets/mod.rs 43-62 -/
def writeRead (p : Packet) : Bool :=
  match p.write with
  | .ok b => p.wireLen = b.length && Packet.read b == (.ok p, [])
  | .error _ => false

/-- `test_async_write_read_write_read_cases`, test_packets/mod.rs 89-103 -/
def asyncWriteRead (p : Packet) : Bool :=
  match p.asyncWrite with
  | .ok (b, n) => n = b.length && p.wireLen = b.length && Packet.asyncRead b == .ok (p, [])
  | .error _ => false

/-- `test_read_write_cases`, test_packets/mod.rs 112-128 -/
def readWrite (b : Bytes) (p : Packet) : Bool := (Packet.read b).1 == .ok p && p.write == .ok b

/-- `test_async_read_write`, test_packets/mod.rs 138-154 -/
def asyncReadWrite (b : Bytes) (p : Packet) : Bool :=
  Packet.asyncRead b == .ok (p, []) && (match p.asyncWrite with | .ok (b', _) => b' = b | .error _ => false)

def user (k v : String) : Str × Str := (txt k, txt v)

open PropertyType

/-! ## the packets, test_cases.rs -/

def connackCase : Packet := .connAck ⟨true, .success,
  Props.empty.set retainAvailable true |>.set maximumPacketSize 1048576 |>.set topicAliasMaximum 65535
    |>.set wildcardSubscriptionAvailable true |>.set subscriptionIdentifierAvailable true
    |>.set sharedSubscriptionAvailable true⟩
def connackBytes : Bytes :=
  [0x20, 0x13, 0x01, 0x00, 0x10, 0x27, 0x00, 0x10, 0x00, 0x00, 0x25, 0x01, 0x2a, 0x01, 0x29, 0x01, 0x22, 0xff, 0xff,
   0x28, 0x01]
def disconnectCase : Packet := .disconnect ⟨.sessionTakenOver, .empty⟩
def publishCase : Packet := .publish ⟨false, .exactlyOnce, true, txt "test/123/test/blabla", some 13779,
  { Props.empty.set payloadFormatIndicator 1 |>.set correlationData (raw "1212") with subIds := [1] }, []⟩
def publishBytes : Bytes :=
  [0x35, 0x24, 0x00, 0x14, 0x74, 0x65, 0x73, 0x74, 0x2f, 0x31, 0x32, 0x33, 0x2f, 0x74, 0x65, 0x73, 0x74, 0x2f, 0x62,
   0x6c, 0x61, 0x62, 0x6c, 0x61, 0x35, 0xd3, 0x0b, 0x01, 0x01, 0x09, 0x00, 0x04, 0x31, 0x32, 0x31, 0x32, 0x0b, 0x01]
def pubrelCase : Packet := .pubRel ⟨13779, .success, .empty⟩
def connectCase : Packet := .connect
  { cleanStart := true
    lastWill := some ⟨.exactlyOnce, true, .empty, txt "will/topic", raw "will payload"⟩
    username := some (txt "ThisIsTheUsername"), password := some (txt "ThisIsThePassword"), keepAlive := 60
    props := { Props.empty.set sessionExpiryInterval 5 |>.set receiveMaximum 10 |>.set maximumPacketSize 100
        |>.set topicAliasMaximum 10 |>.set authenticationMethod (txt "AuthenticationMethod")
        |>.set authenticationData (raw "AuthenticationData") |>.set requestResponseInformation 0
        |>.set requestProblemInformation 1 with
      users := [user "test" "test", user "test2" "test2"] }
    clientId := txt "ThisIsTheClientID" }
def publishPacket2 : Packet := .publish ⟨true, .exactlyOnce, false, txt "test/#", some 4566,
  { Props.empty.set messageExpiryInterval 3600 |>.set topicAlias 1 |>.set correlationData (raw "1212") with
    subIds := [1] }, []⟩
def publishPacket3 : Packet := .publish ⟨true, .atLeastOnce, false, txt "test/#", some 4566,
  { Props.empty.set messageExpiryInterval 3600 |>.set responseTopic (txt "Please respond here thank you")
      |>.set correlationData (raw "5420874") with users := [user "blabla" "another blabla"] }, []⟩
def garbage : Props :=
  { Props.empty.set messageExpiryInterval 3600 |>.set topicAlias 1 |>.set correlationData (raw "1212")
      |>.set contentType (txt "Garbage") with subIds := [1] }
def publishPacket4 : Packet := .publish ⟨true, .atLeastOnce, false, txt "test/#", some 4566, garbage, []⟩
def emptyPublish : Packet := .publish ⟨false, .atMostOnce, false, txt "test/#", none, garbage, []⟩
def createSubscribe (id : UInt16) : Packet := .subscribe ⟨id, .empty, [(txt "test/topic", .default)]⟩
def createUnsubscribe (id : UInt16) : Packet := .unsubscribe ⟨id, .empty, [txt "test/topic"]⟩
def createPuback (id : UInt16) : Packet := .pubAck ⟨id, .success, .empty⟩
def createConnack (present : Bool) : ConnAck := ⟨present, .success, .empty⟩
def createDisconnect : Packet := .disconnect ⟨.normalDisconnection, .empty⟩
def subackCase : Packet := .subAck ⟨3,
  { Props.empty.set subscriptionIdentifier 2000 with users := [user "test" "test"] },
  [.grantedQoS0, .grantedQoS1, .grantedQoS2]⟩
def subscribeCase : Packet := .subscribe ⟨3,
  { Props.empty.set subscriptionIdentifier 2000 with users := [user "test" "test"] }, [(txt "test/topic", .default)]⟩
def unsubackCase : Packet :=
  .unsubAck ⟨3, .empty, [.noSubscriptionExisted, .unspecifiedError, .implementationSpecificError]⟩
def unsubscribeCase : Packet :=
  .unsubscribe ⟨3, { Props.empty with users := [user "written += 1;" "value"] }, [txt "test/topic"]⟩
def pubrecCase : Packet := .pubRec ⟨3, .success,
  { Props.empty.set reasonString (txt "test") with users := [user "test5asdf" "test3", user "test4" "test2"] }⟩
def pubcompCase : Packet := .pubComp ⟨3, .packetIdentifierNotFound,
  { Props.empty.set reasonString (txt "test") with
    users := [user "test5asdf" "test3", user "test⌚5asdf" "test3", user "test5asdf" "test3", user "test5asdf" "test3",
      user "test4" "test2"] }⟩
def pubrelCase2 : Packet := .pubRel ⟨3, .success,
  { Props.empty.set reasonString (txt "test") with
    users := [user "test5asdf" (String.join (List.replicate 100 "test3")), user "test4" "test2"] }⟩
def authCase : Packet := .auth ⟨.continueAuthentication,
  { Props.empty.set authenticationMethod (txt "SomeRandomDataHere")
      |>.set authenticationData (raw "VeryRandomStuff") |>.set reasonString (txt "⌚this_is_for_sure_a_test_⌚") with
    users := [user "SureHopeThisWorks" "😰"] }⟩

def cases : List Packet :=
  [connectCase, .pingReq, .pingResp, connackCase, createSubscribe 1, createSubscribe 65335, createPuback 1,
   createPuback 65335, createDisconnect, .connAck (createConnack true), .connAck (createConnack false), publishCase,
   publishPacket2, publishPacket3, publishPacket4, emptyPublish, subscribeCase, subackCase, unsubscribeCase,
   unsubackCase, pubcompCase, pubrecCase, pubrelCase2, authCase]

def byteCases : List (Bytes × Packet) :=
  [([0xe0, 0x02, 0x8e, 0x00], disconnectCase), ([0xc0, 0x00], .pingReq), ([0xd0, 0x00], .pingResp),
   (publishBytes, publishCase), ([0x62, 0x02, 0x35, 0xd3], pubrelCase)]

/-! ## the tests -/

example : cases.all writeRead = true := by decide +kernel
example : cases.all asyncWriteRead = true := by decide +kernel
example : byteCases.all (fun x => readWrite x.1 x.2) = true := by decide +kernel
example : byteCases.all (fun x => asyncReadWrite x.1 x.2) = true := by decide +kernel

/-- the bytes beside `connack_case` are not compared in the repository; they too are read as that packet -/
example : ((Packet.read connackBytes).1 == .ok connackCase) = true := by decide +kernel

/-! ## tests/test_bytes.rs -/

def publishRaw : Bytes :=
  [0x35, 0x4d, 0x00, 0x1a, 0x63, 0x75, 0x2f, 0x39, 0x2e, 0x30, 0x2e, 0x31, 0x2f, 0x72, 0x65, 0x70, 0x6c, 0x79, 0x2f,
   0x72, 0x65, 0x73, 0x74, 0x61, 0x72, 0x74, 0x74, 0x65, 0x73, 0x74, 0x06, 0x47, 0x29, 0x23, 0x00, 0x01, 0x09, 0x00,
   0x0b, 0x43, 0x6f, 0x72, 0x72, 0x65, 0x6c, 0x61, 0x74, 0x69, 0x6f, 0x6e, 0x26, 0x00, 0x01, 0x41, 0x00, 0x01, 0x42,
   0x26, 0x00, 0x01, 0x43, 0x00, 0x01, 0x44, 0x03, 0x00, 0x07, 0x72, 0x65, 0x73, 0x74, 0x61, 0x72, 0x74, 0x68, 0x65,
   0x6c, 0x6c, 0x6f]
def publishRaw2 : Bytes :=
  [0x34, 0x4a, 0x00, 0x1a, 0x63, 0x75, 0x2f, 0x39, 0x2e, 0x30, 0x2e, 0x31, 0x2f, 0x72, 0x65, 0x70, 0x6c, 0x79, 0x2f,
   0x72, 0x65, 0x73, 0x74, 0x61, 0x72, 0x74, 0x74, 0x65, 0x73, 0x74, 0x00, 0x02, 0x26, 0x03, 0x00, 0x07, 0x72, 0x65,
   0x73, 0x74, 0x61, 0x72, 0x74, 0x09, 0x00, 0x0b, 0x43, 0x6f, 0x72, 0x72, 0x65, 0x6c, 0x61, 0x74, 0x69, 0x6f, 0x6e,
   0x26, 0x00, 0x01, 0x41, 0x00, 0x01, 0x42, 0x26, 0x00, 0x01, 0x43, 0x00, 0x01, 0x44, 0x68, 0x65, 0x6c, 0x6c, 0x6f]
def connectRaw : Bytes :=
  [0x10, 0xbe, 0x02, 0x00, 0x04, 0x4d, 0x51, 0x54, 0x54, 0x05, 0xc6, 0x00, 0x3c, 0x2a, 0x11, 0x00, 0x00, 0x00, 0x00,
   0x21, 0x00, 0x7b, 0x27, 0x00, 0x00, 0x1f, 0x40, 0x22, 0x09, 0xc4, 0x19, 0x01, 0x17, 0x01, 0x26, 0x00, 0x01, 0x41,
   0x00, 0x01, 0x42, 0x26, 0x00, 0x02, 0x43, 0x44, 0x00, 0x08, 0x45, 0x46, 0x47, 0x48, 0x49, 0x4a, 0x4b, 0x4c, 0x00,
   0x0e, 0x6d, 0x71, 0x74, 0x74, 0x78, 0x5f, 0x36, 0x37, 0x62, 0x65, 0x32, 0x33, 0x38, 0x34, 0x06, 0x03, 0x00, 0x00,
   0x08, 0x00, 0x00, 0x00, 0x12, 0x61, 0x6e, 0x6f, 0x74, 0x68, 0x65, 0x72, 0x2f, 0x74, 0x65, 0x73, 0x74, 0x2f, 0x74,
   0x6f, 0x70, 0x69, 0x63, 0x00, 0xc5] ++ List.replicate 197 0x41 ++
  [0x00, 0x08, 0x54, 0x65, 0x73, 0x74, 0x54, 0x65, 0x73, 0x74, 0x00, 0x0b, 0x50, 0x61, 0x73, 0x73, 0x77, 0x6f, 0x72,
   0x64, 0x31, 0x32, 33]
def subscribeRaw : Bytes :=
  [0x82, 0x22, 0x82, 0x02, 0x02, 0x0b, 0x7b, 0x00, 0x1a, 0x63, 0x75, 0x2f, 0x39, 0x2e, 0x30, 0x2e, 0x31, 0x2f, 0x72,
   0x65, 0x70, 0x6c, 0x79, 0x2f, 0x72, 0x65, 0x73, 0x74, 0x61, 0x72, 0x74, 0x74, 0x65, 0x73, 0x74, 0x2e]

/-- read, then write, then read again: what was written and whether the second read gives the same packet -/
def again (b : Bytes) : Option Bytes :=
  match (Packet.read b).1 with
  | .ok p =>
    match p.write with
    | .ok b' => if (Packet.read b').1 == .ok p then some b' else none
    | .error _ => none
  | .error _ => none

example : publishRaw.length = 79 ∧ publishRaw2.length = 76 := by decide

/-- `publish_packet_test` -/
example : (again publishRaw2).map List.length = some 76 := by decide +kernel

/-- `test_connect`, `test_equal_read_write_packet_from_bytes` -/
example : [publishRaw, connectRaw, subscribeRaw].all (fun b => again b = some b) = true := by decide +kernel

/-- the two lengths asserted in `test_connect` -/
example : (match (Packet.read connectRaw).1 with
    | .ok (.connect c) => c.props.wireLen connectEntries = 42 && c.lastWill.map (·.props.wireLen willEntries) = some 6
    | _ => false) = true := by decide +kernel

end Mqrstt.Conformance
