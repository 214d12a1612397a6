import Verif.Model.Reason
/-!
# CONNECT, CONNACK, DISCONNECT, AUTH

Source: `/repo/mqrstt/src/packets/{connect,connack,disconnect,auth}/`.
-/

namespace Mqrstt

/-- `ConnectFlags`, connect/connect_flags.rs 12-26 -/
structure ConnectFlags where
  cleanStart : Bool
  willFlag : Bool
  willQos : QoS
  willRetain : Bool
  password : Bool
  username : Bool
  deriving DecidableEq, Repr

namespace ConnectFlags

/-- `from_u8`, connect_flags.rs 29-38 -/
def fromU8 (v : UInt8) : Except DeErr ConnectFlags :=
  match QoS.fromU8 ((v &&& 0b00011000) >>> 3) with
  | .error e => .error e
  | .ok q => .ok {
      cleanStart := (v &&& 0b00000010) >>> 1 != 0
      willFlag := (v &&& 0b00000100) >>> 2 != 0
      willQos := q
      willRetain := (v &&& 0b00100000) >>> 5 != 0
      password := (v &&& 0b01000000) >>> 6 != 0
      username := (v &&& 0b10000000) >>> 7 != 0 }

/-- `into_u8`, connect_flags.rs 40-49 -/
def toU8 (f : ConnectFlags) : UInt8 :=
  (bit f.cleanStart <<< 1) ||| (bit f.willFlag <<< 2) ||| (f.willQos.toU8 <<< 3)
    ||| (bit f.willRetain <<< 5) ||| (bit f.password <<< 6) ||| (bit f.username <<< 7)

/-- `MqttRead::read`, connect_flags.rs 65-76 -/
def read : Rd ConnectFlags := do
  if (← bufLen) = 0 then Rd.de (.insufficientData 0 1) else Rd.lift (fromU8 (← getU8))

/-- `MqttAsyncRead::async_read`, connect_flags.rs 78-86 -/
def asyncRead : Rd (ConnectFlags × Nat) := do pure (← Rd.lift (fromU8 (← aU8)), 1)

end ConnectFlags

/-- `LastWill`, connect/last_will.rs 11-24 -/
structure LastWill where
  qos : QoS
  retain : Bool
  props : Props
  topic : Str
  payload : Bytes

namespace LastWill

/-- `LastWill::read`, last_will.rs 36-48 -/
def read (qos : QoS) (retain : Bool) : Rd LastWill := do
  let props ← Props.syncRead willSync
  let topic ← readStr
  let payload ← readBin
  pure ⟨qos, retain, props, topic, payload⟩

/-- `LastWill::async_read`, last_will.rs 49-69 -/
def asyncRead (qos : QoS) (retain : Bool) : Rd (LastWill × Nat) := do
  let (props, n) ← Props.asyncRead willEntries
  let (topic, m) ← asyncReadStr
  let (payload, k) ← asyncReadBin
  pure (⟨qos, retain, props, topic, payload⟩, n + m + k)

/-- `MqttWrite::write`, last_will.rs 72-79 -/
def write (w : LastWill) : Wr :=
  Props.syncWrite willEntries willEntries .skip w.props ++ (.ok (strBytes w.topic) : Wr)
    ++ (.ok (binBytes w.payload) : Wr)

/-- `MqttAsyncWrite::async_write`, last_will.rs 81-92 -/
def asyncWrite (w : LastWill) : AWr :=
  Props.asyncWrite willEntries w.props ++ (.ok (strBytes w.topic, 2 + w.topic.length) : AWr)
    ++ (.ok (binBytes w.payload, 2 + w.payload.length) : AWr)

/-- `WireLength::wire_len`, last_will.rs 94-100 -/
def wireLen (w : LastWill) : Nat :=
  strWireLen w.topic + binWireLen w.payload
    + VarInt.len (w.props.wireLen willEntries) + w.props.wireLen willEntries

end LastWill

/-- `Connect`, connect/mod.rs 36-55. `protocol_version` is left out: its type has the single value
`V5`. -/
structure Connect where
  cleanStart : Bool
  lastWill : Option LastWill
  username : Option Str
  password : Option Str
  keepAlive : UInt16
  props : Props
  clientId : Str

namespace Connect

/-- the bytes `MQTT`, connect/mod.rs 74, 121, 182, 232 -/
def protocolName : Bytes := [77, 81, 84, 84]

/-- `Connect::read`, connect/mod.rs 72-113 -/
def read : Rd Connect := do
  let proto ← readBin
  if proto ≠ protocolName then Rd.de .malformedPacketWithInfo
  else
    readProtocolVersion
    let flags ← ConnectFlags.read
    let keepAlive ← getU16
    let props ← Props.syncRead connectSync
    let clientId ← readStr
    let lastWill ←
      if flags.willFlag then do pure (some (← LastWill.read flags.willQos flags.willRetain))
      else pure none
    let username ← if flags.username then do pure (some (← readStr)) else pure none
    let password ← if flags.password then do pure (some (← readStr)) else pure none
    pure ⟨flags.cleanStart, lastWill, username, password, keepAlive, props, clientId⟩

/-- `Connect::async_read`, connect/mod.rs 115-178 -/
def asyncRead : Rd (Connect × Nat) := do
  let proto ← aExact 6
  if proto ≠ 0 :: 4 :: protocolName then Rd.de .malformedPacketWithInfo
  else
    let _ ← asyncReadProtocolVersion
    let (flags, _) ← ConnectFlags.asyncRead
    let keepAlive ← aU16
    let (props, n) ← Props.asyncRead connectEntries
    let (clientId, m) ← asyncReadStr
    let (lastWill, k) ←
      if flags.willFlag then do
        let (w, k) ← LastWill.asyncRead flags.willQos flags.willRetain
        pure (some w, k)
      else pure (none, 0)
    let (username, u) ←
      if flags.username then do
        let (s, u) ← asyncReadStr
        pure (some s, u)
      else pure (none, 0)
    let (password, v) ←
      if flags.password then do
        let (s, u) ← asyncReadStr
        pure (some s, u)
      else pure (none, 0)
    pure (⟨flags.cleanStart, lastWill, username, password, keepAlive, props, clientId⟩,
      6 + 1 + 1 + 2 + (n + m) + k + (u + v))

/-- the flags computed by the writers, connect/mod.rs 186-197, 235-247 -/
def flags (c : Connect) : ConnectFlags :=
  { cleanStart := c.cleanStart
    willFlag := c.lastWill.isSome
    willQos := match c.lastWill with | some w => w.qos | none => .atMostOnce
    willRetain := match c.lastWill with | some w => w.retain | none => false
    password := c.password.isSome
    username := c.username.isSome }

/-- an optional string, connect/mod.rs 211-216, 262-267 -/
def optStrBytes : Option Str → Bytes
  | some s => strBytes s
  | none => []

/-- `Connect::write`, connect/mod.rs 180-218 -/
def write (c : Connect) : Wr :=
  (.ok (binBytes protocolName ++ [5] ++ [c.flags.toU8] ++ u16Bytes c.keepAlive) : Wr)
    ++ Props.syncWrite connectEntries connectEntries .strict c.props
    ++ (.ok (strBytes c.clientId) : Wr)
    ++ (match c.lastWill with | some w => w.write | none => (.ok [] : Wr))
    ++ (.ok (optStrBytes c.username) : Wr) ++ (.ok (optStrBytes c.password) : Wr)

/-- count of an optional string, connect/mod.rs 262-267 -/
def optStrCount : Option Str → Nat
  | some s => 2 + s.length
  | none => 0

/-- `Connect::async_write`, connect/mod.rs 220-272 -/
def asyncWrite (c : Connect) : AWr :=
  (.ok (0 :: 4 :: protocolName ++ [5] ++ [c.flags.toU8] ++ u16Bytes c.keepAlive, 6 + 1 + 1 + 2) : AWr)
    ++ Props.asyncWrite connectEntries c.props
    ++ (.ok (strBytes c.clientId, 2 + c.clientId.length) : AWr)
    ++ (match c.lastWill with | some w => w.asyncWrite | none => (.ok ([], 0) : AWr))
    ++ (.ok (optStrBytes c.username, optStrCount c.username) : AWr)
    ++ (.ok (optStrBytes c.password, optStrCount c.password) : AWr)

/-- `Connect::wire_len`, connect/mod.rs 274-295 -/
def wireLen (c : Connect) : Nat :=
  (binWireLen protocolName + 1 + 1 + 2) + VarInt.len (c.props.wireLen connectEntries)
    + c.props.wireLen connectEntries
    + (match c.lastWill with | some w => w.wireLen | none => 0)
    + (match c.username with | some s => strWireLen s | none => 0)
    + (match c.password with | some s => strWireLen s | none => 0)
    + strWireLen c.clientId

end Connect

/-- `ConnAck`, connack/mod.rs 21-32, with `ConnAckFlags`, 104-107, flattened -/
structure ConnAck where
  sessionPresent : Bool
  reason : Reason
  props : Props

namespace ConnAck

/-- `ConnAckFlags::read`, connack/mod.rs 125-137 -/
def readFlags : Rd Bool := do
  if (← bufLen) = 0 then Rd.de (.insufficientData 0 1)
  else do
    let byte ← getU8
    pure (byte &&& 0b00000001 == 0b00000001)

/-- `ConnAckFlags::async_read`, connack/mod.rs 109-123 -/
def asyncReadFlags : Rd (Bool × Nat) := do
  let byte ← aU8
  pure (byte &&& 0b00000001 == 0b00000001, 1)

/-- `ConnAck::read`, connack/mod.rs 34-50 (its parameter `header_len` is the remaining length) -/
def read (remLen : Nat) : Rd ConnAck := do
  let n ← bufLen
  if remLen > n then Rd.de (.insufficientData n remLen)
  else
    let sp ← readFlags
    let r ← Reason.read Reason.connAck
    let P ← Props.syncRead connAckSync
    pure ⟨sp, r, P⟩

/-- `ConnAck::async_read`, connack/mod.rs 52-70 -/
def asyncRead : Rd (ConnAck × Nat) := do
  let (sp, n) ← asyncReadFlags
  let (r, m) ← Reason.asyncRead Reason.connAck
  let (P, k) ← Props.asyncRead connAckEntries
  pure (⟨sp, r, P⟩, n + m + k)

/-- `ConnAck::write`, connack/mod.rs 72-80; flags 139-146 -/
def write (c : ConnAck) : Wr :=
  (.ok (boolBytes c.sessionPresent) : Wr) ++ c.reason.write
    ++ Props.syncWrite connAckEntries connAckEntries .strict c.props

/-- `ConnAck::async_write`, connack/mod.rs 82-94; flags 148-158 -/
def asyncWrite (c : ConnAck) : AWr :=
  (.ok (boolBytes c.sessionPresent, 1) : AWr) ++ c.reason.asyncWrite
    ++ Props.asyncWrite connAckEntries c.props

/-- `ConnAck::wire_len`, connack/mod.rs 96-102 -/
def wireLen (c : ConnAck) : Nat :=
  2 + VarInt.len (c.props.wireLen connAckEntries) + c.props.wireLen connAckEntries

end ConnAck

/-- `Disconnect`, disconnect/mod.rs 15-19, and `Auth`, auth/mod.rs 19-22: two structs with the same
fields -/
structure ReasonProps where
  reason : Reason
  props : Props

namespace Disconnect

/-- `reason_code != NormalDisconnection || properties.wire_len() != 0`, disconnect/mod.rs 60, 76, 87 -/
def isLong (d : ReasonProps) : Bool :=
  d.reason ≠ .normalDisconnection || d.props.wireLen disconnectEntries ≠ 0

/-- `Disconnect::read`, disconnect/mod.rs 43-57 -/
def read (remLen : Nat) : Rd ReasonProps := do
  if remLen = 0 then pure ⟨.normalDisconnection, .empty⟩
  else
    let r ← Reason.read Reason.disconnect
    let P ← Props.syncRead disconnectSync
    pure ⟨r, P⟩

/-- `Disconnect::async_read`, disconnect/mod.rs 21-41 -/
def asyncRead (remLen : Nat) : Rd (ReasonProps × Nat) := do
  if remLen = 0 then pure (⟨.normalDisconnection, .empty⟩, 0)
  else
    let (r, n) ← Reason.asyncRead Reason.disconnect
    let (P, m) ← Props.asyncRead disconnectEntries
    pure (⟨r, P⟩, n + m)

/-- `Disconnect::write`, disconnect/mod.rs 58-66 -/
def write (d : ReasonProps) : Wr :=
  if isLong d then d.reason.write ++ Props.syncWrite disconnectEntries disconnectEntries .skip d.props
  else .ok []

/-- `Disconnect::async_write`, disconnect/mod.rs 68-83 -/
def asyncWrite (d : ReasonProps) : AWr :=
  if isLong d then d.reason.asyncWrite ++ Props.asyncWrite disconnectEntries d.props
  else .ok ([], 0)

/-- `Disconnect::wire_len`, disconnect/mod.rs 85-95 -/
def wireLen (d : ReasonProps) : Nat :=
  if isLong d then
    1 + VarInt.len (d.props.wireLen disconnectEntries) + d.props.wireLen disconnectEntries
  else 0

end Disconnect

namespace Auth

/-- `Auth::read`, auth/mod.rs 25-32 -/
def read : Rd ReasonProps := do
  let r ← Reason.read Reason.auth
  let P ← Props.syncRead authSync
  pure ⟨r, P⟩

/-- `Auth::async_read`, auth/mod.rs 34-44 -/
def asyncRead : Rd (ReasonProps × Nat) := do
  let (r, n) ← Reason.asyncRead Reason.auth
  let (P, m) ← Props.asyncRead authEntries
  pure (⟨r, P⟩, n + m)

/-- `Auth::write`, auth/mod.rs 57-63 -/
def write (a : ReasonProps) : Wr :=
  a.reason.write ++ Props.syncWrite authEntries authEntries .skip a.props

/-- `Auth::async_write`, auth/mod.rs 46-55 -/
def asyncWrite (a : ReasonProps) : AWr :=
  a.reason.asyncWrite ++ Props.asyncWrite authEntries a.props

/-- `Auth::wire_len`, auth/mod.rs 65-69 -/
def wireLen (a : ReasonProps) : Nat :=
  1 + VarInt.len (a.props.wireLen authEntries) + a.props.wireLen authEntries

end Auth
end Mqrstt
