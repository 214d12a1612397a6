import Verif.Conformance.Packets
import Verif.Model.Topics
/-!
# The repository's tests of the session state and of the client, run against the model

Source: the test modules of `/repo/mqrstt/src/state_handler.rs` and `/repo/mqrstt/src/client.rs`.

The payload of `create_publish_packet` (27 bytes repeated 500 times) is repeated twice here.
-/

namespace Mqrstt.Conformance
open Mqrstt PropertyType

/-! ## state_handler.rs -/

def createPublish (qos : QoS) (dup retain : Bool) (id : Option UInt16) : Publish :=
  ⟨dup, qos, retain, txt "test/#", id, garbage, raw "testabcbba==asdasdasdasdasdtestabcbba==asdasdasdasdasd"⟩

/-- `handler`: 100 identifiers, receive maximum 100 -/
def handler (cleanStart : Bool) : Handler := ⟨State.new 100 (Pool.new 100), cleanStart⟩

/-- `apkid.recv()` -/
def recv (h : Handler) : Option (UInt16 × Handler) :=
  h.state.pool.take.map fun (id, pool) => (id, { h with state := { h.state with pool := pool } })

def send (h : Handler) (p : Packet) : Option Handler :=
  match h.outgoing p with
  | (h, .ok ()) => some h
  | (_, .error _) => none

def receive (h : Handler) (p : Packet) : Option (Handler × Option Packet × Bool) :=
  match h.incoming p with
  | (h, .ok r) => some (h, r)
  | (_, .error _) => none

/-- sizes of the collections: incoming publishes, order, PUBREL, subscribe, unsubscribe, free identifiers -/
def sizes (h : Handler) : List Nat :=
  [h.state.incoming.length, h.state.order.length, h.state.rel.length, h.state.sub.length, h.state.unsub.length,
   h.state.pool.queue.length]

/-- `outgoing_publish_qos_0` -/
example : (do
    let h ← send (handler false) (.publish (createPublish .atMostOnce false false none))
    pure (sizes h, h.state.slots.length)) = some ([0, 0, 0, 0, 0, 100], 100) := by decide +kernel

/-- `outgoing_publish_qos_1` -/
example : (do
    let (id, h) ← recv (handler false)
    let p := createPublish .atLeastOnce false false (some id)
    let h ← send h (.publish p)
    let (h', reply, _) ← receive h (createPuback id)
    pure (sizes h, h.state.stored id == some p, sizes h', h'.state.stored id == none, reply == none)) =
    some ([0, 1, 0, 0, 0, 99], true, [0, 0, 0, 0, 0, 100], true, true) := by decide +kernel

/-- `incoming_publish_qos_1` -/
example : (do
    let (h, reply, shown) ← receive (handler false) (.publish (createPublish .atLeastOnce false false (some 1)))
    pure (sizes h, shown, reply == some (createPuback 1))) = some ([0, 0, 0, 0, 0, 100], true, true) := by
  decide +kernel

/-- `outgoing_publish_qos_2` -/
example : (do
    let (id, h) ← recv (handler false)
    let p := createPublish .exactlyOnce false false (some id)
    let h0 ← send h (.publish p)
    let (h1, r1, _) ← receive h0 (.pubRec ⟨id, .success, .empty⟩)
    let (h2, r2, s2) ← receive h1 (.pubComp ⟨id, .success, .empty⟩)
    pure (h0.state.stored id == some p && h1.state.stored id == none && r1 == some (.pubRel ⟨id, .success, .empty⟩) &&
      h1.state.rel == [1] && r2 == none && s2 && h2.state.stored id == none, sizes h0, sizes h1, sizes h2)) =
    some (true, [0, 1, 0, 0, 0, 99], [0, 0, 1, 0, 0, 99], [0, 0, 0, 0, 0, 100]) := by decide +kernel

/-- `incoming_publish_qos_2` -/
example : (do
    let (id, h) ← recv (handler false)
    let (h1, r1, _) ← receive h (.publish (createPublish .exactlyOnce false false (some id)))
    let (h2, r2, _) ← receive h1 (.pubRel ⟨id, .success, .empty⟩)
    pure (r1 == some (.pubRec ⟨id, .success, .empty⟩) && r2 == some (.pubComp ⟨id, .success, .empty⟩),
      sizes h1, sizes h2)) =
    some (true, [1, 0, 0, 0, 0, 99], [0, 0, 0, 0, 0, 99]) := by decide +kernel

/-- `outgoing_subscribe` -/
example : (do
    let (id, h) ← recv (handler false)
    let h1 ← send h (createSubscribe id)
    let (h2, r, _) ← receive h1 (.subAck ⟨1, .empty, [.grantedQoS0]⟩)
    pure (sizes h1, sizes h2, r == none)) = some ([0, 0, 0, 1, 0, 99], [0, 0, 0, 0, 0, 100], true) := by decide +kernel

/-- `outgoing_unsubscribe` -/
example : (do
    let (id, h) ← recv (handler false)
    let h1 ← send h (createUnsubscribe id)
    let (h2, r, _) ← receive h1 (.unsubAck ⟨1, .empty, [.success]⟩)
    pure (sizes h1, sizes h2, r == none)) = some ([0, 0, 0, 0, 1, 99], [0, 0, 0, 0, 0, 100], true) := by decide +kernel

/-- `retransmit_test_1` -/
example : (do
    let (id1, h) ← recv (handler false)
    let p1 := createPublish .atLeastOnce false false (some id1)
    let h ← send h (.publish p1)
    let (id2, h) ← recv h
    let p2 := createPublish .exactlyOnce false false (some id2)
    let h ← send h (.publish p2)
    let h ← send h (.publish (createPublish .atMostOnce false false none))
    let (id3, h) ← recv h
    let (id4, h) ← recv h
    let h ← send h (createSubscribe id3)
    let h ← send h (createUnsubscribe id4)
    match h.connAck (createConnack true) with
    | (h', .ok (some ps)) =>
      pure (h.state.pool.queue.length, h'.state.pool.queue.length,
        ps == [.publish { p1 with dup := true }, .publish { p2 with dup := true }])
    | _ => none) = some (96, 98, true) := by decide +kernel

/-! ## client.rs -/

/-- `create_new_test_client`: 100 identifiers, maximum packet size 500000; the network exists -/
def testClient : Sys := Sys.init 100 100 500000 true

/-- a call and its submission: what arrives at the network -/
def submitted (s : Sys) (m : Method) : Option (Sys × Packet) :=
  match s.step (.call m.request) with
  | some (s, .called _ _ _) =>
    match s.step (.submit 0) with
    | some (s, .submitted p) => some (s, p)
    | _ => none
  | _ => none

/-- calls one after the other; what arrives at the network -/
def submittedAll : Sys → List Method → Option (List Packet)
  | _, [] => some []
  | s, m :: ms => do
    let (s, p) ← submitted s m
    let ps ← submittedAll s ms
    pure (p :: ps)

def exactlyOnce : SubOptions := ⟨.zero, false, false, .exactlyOnce⟩

/-- `test_subscribe`, `test_subscribe_blocking` -/
example : (submittedAll testClient
    [.subscribe (.one (.topic (txt "test/topic"))), .subscribe (.one (.withQoS (txt "test/topic") .exactlyOnce)),
     .subscribe (.many [.withQoS (txt "test/topic1") .exactlyOnce, .withQoS (txt "test/topic2") .atMostOnce]),
     .subscribe (.one (.withOptions (txt "final/test/topic") ⟨.two, false, false, .atLeastOnce⟩))] ==
    some [createSubscribe 1, .subscribe ⟨2, .empty, [(txt "test/topic", exactlyOnce)]⟩,
      .subscribe ⟨3, .empty, [(txt "test/topic1", exactlyOnce), (txt "test/topic2", .default)]⟩,
      .subscribe ⟨4, .empty, [(txt "final/test/topic", ⟨.two, false, false, .atLeastOnce⟩)]⟩]) = true := by
  decide +kernel

/-- `test_subscribe_with_properties` -/
example : ((submitted testClient (.subscribeWith (.one (.topic (txt "test/topic")))
      (Props.empty.set subscriptionIdentifier 1))).map Prod.snd ==
    some (.subscribe ⟨1, Props.empty.set subscriptionIdentifier 1, [(txt "test/topic", .default)]⟩)) = true := by
  decide +kernel

/-- `test_unsubscribe`, `test_unsubscribe_blocking`, `unsubscribe_with_properties_test` -/
example : (submittedAll testClient [.unsubscribe (.one (txt "test/topic")),
      .unsubscribe (.many [txt "test/topic1", txt "test/topic2"]),
      .unsubscribeWith (.one (txt "Topic")) { Props.empty with users := [user "A" "B"] }] ==
    some [createUnsubscribe 1, .unsubscribe ⟨2, .empty, [txt "test/topic1", txt "test/topic2"]⟩,
      .unsubscribe ⟨3, { Props.empty with users := [user "A" "B"] }, [txt "Topic"]⟩]) = true := by decide +kernel

/-- `disconnect_test`, `test_disconnect_with_properties`, `test_disconnect_with_properties_2` and the blocking ones -/
example : (submittedAll testClient [.disconnect, .disconnectWith .keepAliveTimeout .empty,
      .disconnectWith .keepAliveTimeout (Props.empty.set reasonString (txt "TestString"))] ==
    some [.disconnect ⟨.normalDisconnection, .empty⟩, .disconnect ⟨.keepAliveTimeout, .empty⟩,
      .disconnect ⟨.keepAliveTimeout, Props.empty.set reasonString (txt "TestString")⟩]) = true := by decide +kernel

/-- the identifiers in `publish_with_properties` (with a short topic) -/
example : (let P := Props.empty.set responseTopic (txt "response/topic")
      |>.set correlationData (raw "correlation_other_data")
    let m := fun q => Method.publishWith (txt "way") q false (raw "hello") P
    let p := fun q id => Packet.publish ⟨false, q, false, txt "way", id, P, raw "hello"⟩
    submittedAll testClient [m .atMostOnce, m .atLeastOnce, m .exactlyOnce] ==
      some [p .atMostOnce none, p .atLeastOnce (some 1), p .exactlyOnce (some 2)]) = true := by decide +kernel

/-! The tests with long topics are evaluated with lemmas about lengths. -/

/-- `n` times the bytes `b` -/
def times (n : Nat) (b : Bytes) : Bytes := (List.replicate n b).flatten

theorem times_length (n : Nat) (b : Bytes) : (times n b).length = n * b.length := by simp [times]

theorem ascii_cons (a : UInt8) (r : Bytes) (h : a < 0x80) : validUtf8 (a :: r) = validUtf8 r := by
  rw [validUtf8.eq_def]
  simp only [h, if_true]

theorem times_valid (n : Nat) (x y z : UInt8) (hx : x < 0x80) (hy : y < 0x80) (hz : z < 0x80) :
    validUtf8 (times n [x, y, z]) = true := by
  induction n with
  | zero => rfl
  | succ n ih =>
    have : times (n + 1) [x, y, z] = x :: y :: z :: times n [x, y, z] := by simp [times, List.replicate_succ]
    rw [this]
    rw [ascii_cons _ _ hx, ascii_cons _ _ hy, ascii_cons _ _ hz, ih]

/-- `"way".repeat(n)` -/
def way (n : Nat) : Str := ⟨times n (raw "way"), times_valid n 119 97 121 (by decide) (by decide) (by decide)⟩

theorem way_length (n : Nat) : (way n).length = n * 3 := times_length n (raw "way")
theorem way_bytes (n : Nat) : (way n).bytes.length = n * 3 := times_length n (raw "way")

theorem testClient_publish (topic : Str) (payload : Bytes) :
    ((testClient.step (.call (Method.request (.publish topic .exactlyOnce false payload)))).map Prod.snd) =
      (match (⟨false, .exactlyOnce, false, topic, some 1, .empty, payload⟩ : Publish).validate 500000 with
       | .error e => some (.rejected (Method.request (.publish topic .exactlyOnce false payload)) (some 1) (.validation e))
       | .ok () => some (.called (Method.request (.publish topic .exactlyOnce false payload)) (some 1)
          (.publish ⟨false, .exactlyOnce, false, topic, some 1, .empty, payload⟩))) := by
  have h1 : testClient.pool.closed = false := rfl
  have h2 : (Method.request (.publish topic .exactlyOnce false payload)).takesId = true := rfl
  have h3 : testClient.pool.take = some (1, { testClient.pool with queue := testClient.pool.queue.tail }) := by
    decide +kernel
  simp only [Sys.step, Sys.call, h1, h2, h3, Bool.false_eq_true, if_false, if_true]
  simp only [Sys.callWith, Method.request, Request.packet, Packet.validate]
  have h4 : ∀ pool, (testClient.withPool pool).maxPacketSize = 500000 := fun _ => rfl
  have h5 : ∀ pool, (testClient.withPool pool).alive = true := fun _ => rfl
  simp only [h4, h5]
  generalize Publish.validate _ 500000 = v
  cases v <;> rfl

theorem emptyProps_len : Props.empty.wireLen publishEntries = 0 := by decide +kernel

theorem hello_length : (raw "hello").length = 5 := by decide +kernel
theorem hello_bytes : (txt "hello").bytes.length = 5 := by decide +kernel

theorem times_hello : (times 86893 (raw "hello")).length = 434465 := by rw [times_length, hello_length]

theorem just_right_topic (t : Str) (b : Bytes) (h1 : t.length = 21845 * 3) (h2 : t.bytes.length = 21845 * 3) (h : b.length = 5) :
    (⟨false, .exactlyOnce, false, t, some 1, .empty, b⟩ : Publish).validate 500000 = .ok () := by
  simp [Publish.validate, Publish.wireLen, emptyProps_len, h1, h2, h, strWireLen, VarInt.len, maximumTopicSize]

/-- `publish_with_just_right_topic_len` -/
example : (⟨false, .exactlyOnce, false, way 21845, some 1, .empty, raw "hello"⟩ : Publish).validate 500000 = .ok () :=
  just_right_topic (way 21845) (raw "hello") (way_length 21845) (way_bytes 21845) hello_length

theorem too_long_topic (t : Str) (b : Bytes) (h1 : t.length = 21846 * 3) (h2 : t.bytes.length = 21846 * 3) (h : b.length = 5) :
    (⟨false, .exactlyOnce, false, t, some 1, .empty, b⟩ : Publish).validate 500000 = .error (.topicSize 65538) := by
  simp [Publish.validate, Publish.wireLen, emptyProps_len, h1, h2, h, strWireLen, VarInt.len, maximumTopicSize]

/-- `publish_with_too_long_topic` -/
example : (⟨false, .exactlyOnce, false, way 21846, some 1, .empty, raw "hello"⟩ : Publish).validate 500000 =
    .error (.topicSize 65538) :=
  too_long_topic (way 21846) (raw "hello") (way_length 21846) (way_bytes 21846) hello_length

theorem too_large_packet (t : Str) (b : Bytes) (h2 : t.bytes.length = 21845 * 3) (h : b.length = 434465) :
    (⟨false, .exactlyOnce, false, t, some 1, .empty, b⟩ : Publish).validate 500000 = .error (.maxPacketSize 500005) := by
  simp [Publish.validate, Publish.wireLen, emptyProps_len, h2, h, strWireLen, VarInt.len]

/-- `publish_with_too_large_mqtt_packet` -/
example : (⟨false, .exactlyOnce, false, way 21845, some 1, .empty, times 86893 (raw "hello")⟩ : Publish).validate 500000 =
    .error (.maxPacketSize 500005) :=
  too_large_packet (way 21845) (times 86893 (raw "hello")) (way_bytes 21845) times_hello

theorem emptySubProps_len : Props.empty.wireLen subscribeEntries = 0 := by decide +kernel

theorem too_long_filter (t u : Str) (h1 : t.length = 50000 * 3) (h2 : t.bytes.length = 50000 * 3) (h : u.bytes.length = 5) :
    (⟨1, .empty, (SubArgs.many [.topic t, .topic u]).topics⟩ : Subscribe).validate 500000 = .error (.topicSize 150000) := by
  simp [Subscribe.validate, Subscribe.wireLen, SubArgs.topics, SubArg.into, emptySubProps_len, h1, h2, h,
    strWireLen, VarInt.len, maximumTopicSize]

/-- `subscribe_with_too_long_topic` (the test's topic also has 150000 bytes) -/
example : (⟨1, .empty, (SubArgs.many [.topic (way 50000), .topic (txt "hello")]).topics⟩ : Subscribe).validate 500000 =
    .error (.topicSize 150000) :=
  too_long_filter (way 50000) (txt "hello") (way_length 50000) (way_bytes 50000) hello_bytes

theorem just_right_filter (t u : Str) (h1 : t.length = 21845 * 3) (h2 : t.bytes.length = 21845 * 3) (h : u.bytes.length = 5)
    (h' : u.length = 5) :
    (⟨1, .empty, (SubArgs.many [.topic t, .topic u]).topics⟩ : Subscribe).validate 500000 = .ok () := by
  simp [Subscribe.validate, Subscribe.wireLen, SubArgs.topics, SubArg.into, emptySubProps_len, h1, h2, h,
    h', strWireLen, VarInt.len, maximumTopicSize]

/-- `subscribe_with_just_right_topic_len` -/
example : (⟨1, .empty, (SubArgs.many [.topic (way 21845), .topic (txt "hello")]).topics⟩ : Subscribe).validate 500000 =
    .ok () :=
  just_right_filter (way 21845) (txt "hello") (way_length 21845) (way_bytes 21845) hello_bytes hello_bytes

end Mqrstt.Conformance
