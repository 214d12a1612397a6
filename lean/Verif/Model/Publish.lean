import Verif.Model.Reason
/-!
# PUBLISH, SUBSCRIBE, UNSUBSCRIBE

Source: `/repo/mqrstt/src/packets/{publish,subscribe,unsubscribe}/mod.rs`.
-/

namespace Mqrstt

/-- `PacketValidationError`, error.rs 108-113 -/
inductive ValidationErr where
  | maxPacketSize (n : Nat)
  | topicSize (n : Nat)
  deriving DecidableEq, Repr

/-- `MAXIMUM_TOPIC_SIZE`, util/constants.rs -/
def maximumTopicSize : Nat := 65535

/-- `Publish`, publish/mod.rs 28-49 -/
structure Publish where
  dup : Bool
  qos : QoS
  retain : Bool
  topic : Str
  pkid : Option UInt16
  props : Props
  payload : Bytes

namespace Publish

/-- `Publish::new`, publish/mod.rs 52-62 -/
def new (qos : QoS) (retain : Bool) (topic : Str) (pkid : Option UInt16) (props : Props)
    (payload : Bytes) : Publish :=
  ⟨false, qos, retain, topic, pkid, props, payload⟩

/-- the payload is the rest of the packet's buffer (`buf.to_vec()`), publish/mod.rs 90 -/
def rest : Rd Bytes := fun b => .ok (b, [])

/-- `Publish::read`, publish/mod.rs 69-93 -/
def read (flags : UInt8) : Rd Publish := do
  let dup : Bool := flags &&& 0b1000 != 0
  let qos ← Rd.lift (QoS.fromU8 ((flags &&& 0b110) >>> 1))
  let retain : Bool := flags &&& 0b1 != 0
  let topic ← readStr
  let pkid ← if qos ≠ .atMostOnce then do pure (some (← readU16)) else pure none
  let props ← Props.syncRead publishSync
  pure ⟨dup, qos, retain, topic, pkid, props, ← rest⟩

/-- `Publish::async_read`, publish/mod.rs 95-138 -/
def asyncRead (flags : UInt8) (remLen : Nat) : Rd (Publish × Nat) := do
  let dup : Bool := flags &&& 0b1000 != 0
  let qos ← Rd.lift (QoS.fromU8 ((flags &&& 0b110) >>> 1))
  let retain : Bool := flags &&& 0b1 != 0
  let (topic, n) ← asyncReadStr
  let (pkid, k) ← if qos = .atMostOnce then pure (none, 0) else do pure (some (← aU16), 2)
  let (props, m) ← Props.asyncRead publishEntries
  let total := n + k + m
  if total > remLen then Rd.de .malformedPacket
  else
    let payload ← aExact (remLen - total)
    pure (⟨dup, qos, retain, topic, pkid, props, payload⟩, total + (remLen - total))

/-- the optional packet identifier, publish/mod.rs 144-146, 167-170 -/
def pkidBytes : Option UInt16 → Bytes
  | some i => u16Bytes i
  | none => []

/-- `Publish::write`, publish/mod.rs 140-154 -/
def write (p : Publish) : Wr :=
  (.ok (strBytes p.topic) : Wr) ++ (.ok (pkidBytes p.pkid) : Wr)
    ++ Props.syncWrite publishEntries publishOrder .skip p.props ++ (.ok p.payload : Wr)

/-- `Publish::async_write`, publish/mod.rs 156-179 -/
def asyncWrite (p : Publish) : AWr :=
  (.ok (strBytes p.topic, 2 + p.topic.length) : AWr)
    ++ (.ok (pkidBytes p.pkid, if p.pkid.isSome then 2 else 0) : AWr)
    ++ Props.asyncWrite publishEntries p.props ++ (.ok (p.payload, p.payload.length) : AWr)

/-- `Publish::wire_len`, publish/mod.rs 180-194 -/
def wireLen (p : Publish) : Nat :=
  strWireLen p.topic + (if p.pkid.isSome then 2 else 0)
    + VarInt.len (p.props.wireLen publishEntries) + p.props.wireLen publishEntries
    + p.payload.length

/-- `Publish::validate`, publish/mod.rs 196-207 -/
def validate (p : Publish) (maxPacketSize : Nat) : Except ValidationErr Unit :=
  if p.wireLen > maxPacketSize then .error (.maxPacketSize p.wireLen)
  else if p.topic.length > maximumTopicSize then .error (.topicSize p.topic.length)
  else .ok ()

end Publish

/-- `RetainHandling`, subscribe/mod.rs 245-252 -/
inductive RetainHandling where
  | zero | one | two
  deriving DecidableEq, Repr

namespace RetainHandling
/-- `from_u8`, subscribe/mod.rs 255-262 -/
def fromU8 (v : UInt8) : Except DeErr RetainHandling :=
  if v = 0 then .ok zero else if v = 1 then .ok one else if v = 2 then .ok two
  else .error .malformedPacket
/-- `into_u8`, subscribe/mod.rs 263-269 -/
def toU8 : RetainHandling → UInt8
  | zero => 0 | one => 1 | two => 2
end RetainHandling

/-- `SubscriptionOptions`, subscribe/mod.rs 152-158 -/
structure SubOptions where
  retainHandling : RetainHandling
  retainAsPublish : Bool
  noLocal : Bool
  qos : QoS
  deriving DecidableEq, Repr

namespace SubOptions

/-- `Default`, subscribe/mod.rs 160-169 -/
def default : SubOptions := ⟨.zero, false, false, .atMostOnce⟩

/-- the byte of `MqttWrite::write`, subscribe/mod.rs 216-223 (async 225-239) -/
def toByte (o : SubOptions) : UInt8 :=
  (o.retainHandling.toU8 <<< 4) ||| (bit o.retainAsPublish <<< 3) ||| (bit o.noLocal <<< 2)
    ||| o.qos.toU8

/-- decoding of the byte, subscribe/mod.rs 179-191 (async 202-214); unused bits 6-7 are ignored -/
def ofByte (byte : UInt8) : Except DeErr SubOptions :=
  match RetainHandling.fromU8 ((byte &&& 0b00110000) >>> 4) with
  | .error e => .error e
  | .ok rh =>
    match QoS.fromU8 (byte &&& 0b00000011) with
    | .error e => .error e
    | .ok q => .ok ⟨rh, (byte &&& 0b00001000) >>> 3 != 0, (byte &&& 0b00000100) >>> 2 != 0, q⟩

/-- `MqttRead::read`, subscribe/mod.rs 171-194 -/
def read : Rd SubOptions := do
  if (← bufLen) = 0 then Rd.de (.insufficientData 0 1) else Rd.lift (ofByte (← getU8))

/-- `MqttAsyncRead::async_read`, subscribe/mod.rs 196-217 -/
def asyncRead : Rd (SubOptions × Nat) := do pure (← Rd.lift (ofByte (← aU8)), 1)

end SubOptions

/-- `Subscribe`, subscribe/mod.rs 19-24 -/
structure Subscribe where
  id : UInt16
  props : Props
  topics : List (Str × SubOptions)

namespace Subscribe

/-- the `loop` of `Subscribe::read`, subscribe/mod.rs 40-50 -/
def readTopics : (fuel : Nat) → Rd (List (Str × SubOptions))
  | 0 => Rd.fail .fuel
  | fuel + 1 => do
      let topic ← readStr
      let options ← SubOptions.read
      if (← bufLen) = 0 then pure [(topic, options)]
      else
        let ts ← readTopics fuel
        pure ((topic, options) :: ts)

/-- `Subscribe::read`, subscribe/mod.rs 36-58 -/
def read : Rd Subscribe := do
  let id ← readU16
  let props ← Props.syncRead subscribeSync
  let topics ← readTopics ((← bufLen) + 1)
  pure ⟨id, props, topics⟩

/-- the `loop` of `Subscribe::async_read`, subscribe/mod.rs 71-80: it is left as soon as the bytes
read do *not* exceed the remaining length -/
def asyncTopics (remLen : Nat) : (fuel total : Nat) → Rd (List (Str × SubOptions) × Nat)
  | 0, _ => Rd.fail .fuel
  | fuel + 1, total => do
      let (topic, n) ← asyncReadStr
      let (options, m) ← SubOptions.asyncRead
      let total := total + (n + m)
      if remLen ≥ total then pure ([(topic, options)], total)
      else
        let (ts, t) ← asyncTopics remLen fuel total
        pure ((topic, options) :: ts, t)

/-- `Subscribe::async_read`, subscribe/mod.rs 60-91 -/
def asyncRead (remLen : Nat) : Rd (Subscribe × Nat) := do
  let id ← aU16
  let (props, n) ← Props.asyncRead subscribeEntries
  let (topics, t) ← asyncTopics remLen ((← bufLen) + 1) (2 + n)
  pure (⟨id, props, topics⟩, t)

/-- topics and options as written, subscribe/mod.rs 98-101, 117-120 -/
def topicBytes (ts : List (Str × SubOptions)) : Bytes :=
  ts.flatMap fun (t, o) => strBytes t ++ [o.toByte]

/-- `Subscribe::write`, subscribe/mod.rs 93-105 -/
def write (s : Subscribe) : Wr :=
  (.ok (u16Bytes s.id) : Wr) ++ Props.syncWrite subscribeEntries subscribeEntries .skip s.props
    ++ (.ok (topicBytes s.topics) : Wr)

/-- `Subscribe::async_write`, subscribe/mod.rs 107-124 -/
def asyncWrite (s : Subscribe) : AWr :=
  (.ok (u16Bytes s.id, 2) : AWr) ++ Props.asyncWrite subscribeEntries s.props
    ++ (.ok (topicBytes s.topics, (s.topics.map fun (t, _) => 2 + t.length + 1).sum) : AWr)

/-- `Subscribe::wire_len`, subscribe/mod.rs 126-136 -/
def wireLen (s : Subscribe) : Nat :=
  2 + (s.props.wireLen subscribeEntries + VarInt.len (s.props.wireLen subscribeEntries))
    + (s.topics.map fun (t, _) => strWireLen t + 1).sum

/-- `Subscribe::validate`, subscribe/mod.rs 138-150: the first topic that is too long is reported -/
def validate (s : Subscribe) (maxPacketSize : Nat) : Except ValidationErr Unit :=
  if s.wireLen > maxPacketSize then .error (.maxPacketSize s.wireLen)
  else match s.topics.find? (fun (t, _) => decide (t.length > maximumTopicSize)) with
    | some (t, _) => .error (.topicSize t.length)
    | none => .ok ()

end Subscribe

/-- `Unsubscribe`, unsubscribe/mod.rs 18-22 -/
structure Unsubscribe where
  id : UInt16
  props : Props
  topics : List Str

namespace Unsubscribe

/-- the `loop` of `Unsubscribe::read`, unsubscribe/mod.rs 39-47 -/
def readTopics : (fuel : Nat) → Rd (List Str)
  | 0 => Rd.fail .fuel
  | fuel + 1 => do
      let topic ← readStr
      if (← bufLen) = 0 then pure [topic]
      else
        let ts ← readTopics fuel
        pure (topic :: ts)

/-- `Unsubscribe::read`, unsubscribe/mod.rs 34-55 -/
def read : Rd Unsubscribe := do
  let id ← readU16
  let props ← Props.syncRead unsubscribeSync
  let topics ← readTopics ((← bufLen) + 1)
  pure ⟨id, props, topics⟩

/-- the `loop` of `Unsubscribe::async_read`, unsubscribe/mod.rs 68-77 -/
def asyncTopics (remLen : Nat) : (fuel total : Nat) → Rd (List Str × Nat)
  | 0, _ => Rd.fail .fuel
  | fuel + 1, total => do
      let (topic, n) ← asyncReadStr
      let total := total + n
      if total ≥ remLen then pure ([topic], total)
      else
        let (ts, t) ← asyncTopics remLen fuel total
        pure (topic :: ts, t)

/-- `Unsubscribe::async_read`, unsubscribe/mod.rs 57-88 -/
def asyncRead (remLen : Nat) : Rd (Unsubscribe × Nat) := do
  let id ← aU16
  let (props, n) ← Props.asyncRead unsubscribeEntries
  let (topics, t) ← asyncTopics remLen ((← bufLen) + 1) (2 + n)
  pure (⟨id, props, topics⟩, t)

/-- `Unsubscribe::write`, unsubscribe/mod.rs 90-101 -/
def write (s : Unsubscribe) : Wr :=
  (.ok (u16Bytes s.id) : Wr)
    ++ Props.syncWrite unsubscribeEntries unsubscribeEntries .skip s.props
    ++ (.ok (s.topics.flatMap strBytes) : Wr)

/-- `Unsubscribe::async_write`, unsubscribe/mod.rs 102-121 -/
def asyncWrite (s : Unsubscribe) : AWr :=
  (.ok (u16Bytes s.id, 2) : AWr) ++ Props.asyncWrite unsubscribeEntries s.props
    ++ (.ok (s.topics.flatMap strBytes, (s.topics.map fun t => 2 + t.length).sum) : AWr)

/-- `Unsubscribe::wire_len`, unsubscribe/mod.rs 123-131 -/
def wireLen (s : Unsubscribe) : Nat :=
  2 + VarInt.len (s.props.wireLen unsubscribeEntries) + s.props.wireLen unsubscribeEntries
    + (s.topics.map strWireLen).sum

/-- `Unsubscribe::validate`, unsubscribe/mod.rs 133-145 -/
def validate (s : Unsubscribe) (maxPacketSize : Nat) : Except ValidationErr Unit :=
  if s.wireLen > maxPacketSize then .error (.maxPacketSize s.wireLen)
  else match s.topics.find? (fun t => decide (t.length > maximumTopicSize)) with
    | some t => .error (.topicSize t.length)
    | none => .ok ()

end Unsubscribe
end Mqrstt
