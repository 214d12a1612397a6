/-!
# Bytes, errors and readers

Basic vocabulary of the model. Source: `/repo/mqrstt/src/packets/error.rs`.
-/

namespace Mqrstt

/-- A buffer (`bytes::Bytes`, `bytes::BytesMut`) or the bytes still to come on a stream. The `&mut Bytes`, `&mut
BytesMut` and `&mut S` of packets/mqtt_trait/mod.rs 7-58. -/
abbrev Bytes := List UInt8

/-- `PacketType`, packets/mod.rs 399-415. -/
inductive PacketType where
  | connect | connAck | publish | pubAck | pubRec | pubRel | pubComp
  | subscribe | subAck | unsubscribe | unsubAck | pingReq | pingResp | disconnect | auth
  deriving DecidableEq, Repr

/-- `PropertyType`, packets/primitive/property_type.rs 11-39. -/
inductive PropertyType where
  | payloadFormatIndicator | messageExpiryInterval | contentType | responseTopic
  | correlationData | subscriptionIdentifier | sessionExpiryInterval
  | assignedClientIdentifier | serverKeepAlive | authenticationMethod | authenticationData
  | requestProblemInformation | willDelayInterval | requestResponseInformation
  | responseInformation | serverReference | reasonString | receiveMaximum
  | topicAliasMaximum | topicAlias | maximumQos | retainAvailable | userProperty
  | maximumPacketSize | wildcardSubscriptionAvailable | subscriptionIdentifierAvailable
  | sharedSubscriptionAvailable
  deriving DecidableEq, Repr

/-- `DeserializeError`, packets/error.rs 23-69. Simplified: type names and the inner
`FromUtf8Error` are dropped, as is the text of `MalformedPacketWithInfo`; the variants `ReadTooMuchData` and
`UnexpectedReasonCode` are left out because no function produces them. -/
inductive DeErr where
  | malformedPacketWithInfo
  | malformedPacket
  | unknownFixedHeader (b : UInt8)
  | unsupportedProtocolVersion
  | unknownProtocolVersion
  | insufficientData (available needed : Nat)
  | insufficientDataForProtocolVersion
  | remainingDataError (read remainingLength : Nat)
  | duplicateProperty (p : PropertyType)
  | unexpectedProperty (p : PropertyType) (k : PacketType)
  | unknownProperty (b : UInt8)
  | unknownQoS (b : UInt8)
  | utf8Error
  deriving DecidableEq, Repr

/-- Why a reader did not produce a value: a `DeserializeError`, the end of the stream
(`io::ErrorKind::UnexpectedEof` of tokio's `read_u8`, `read_exact`, ...; only async readers),
or a panic (`bytes::Buf::get_u16` and friends on too short a buffer, index out of bounds, ...).
`fuel` is an artefact of the model (loops take fuel); it is proved never to occur. The error types of
packets/mqtt_trait/mod.rs 8, 15, 34, 39; packets/error.rs 15-21. -/
inductive Fail where
  | de (e : DeErr)
  | eof
  | panic
  | fuel
  deriving DecidableEq, Repr

/-- `SerializeError`, packets/error.rs 86-96 (`StringTooLong` is never produced). -/
inductive SerErr where
  | variableIntegerOverflow (n : Nat)
  | authDataWithoutAuthMethod
  deriving DecidableEq, Repr

/-- `ReadBytes<T>`, packets/error.rs 77-84. -/
inductive ReadBytes where
  | err (e : Fail)
  | insufficientBytes (n : Nat)
  deriving DecidableEq, Repr

/-- A reader: consumes from the front of a buffer (sync, `&mut Bytes`) or stream (async). packets/mqtt_trait/mod.rs 33-40. -/
def Rd (α : Type) := Bytes → Except Fail (α × Bytes)

namespace Rd

/-- `Ok(x)` at the end of a reader (packets/mqtt_trait/mod.rs 34, 39). -/
def pure {α} (a : α) : Rd α := fun b => .ok (a, b)

/-- `?` and `;` of Rust between two reads (packets/mqtt_trait/mod.rs 34, 39): the second runs on what the first left. -/
def bind {α β} (x : Rd α) (f : α → Rd β) : Rd β := fun b =>
  match x b with
  | .error e => .error e
  | .ok (a, b') => f a b'

/-- `do` notation for readers (packets/mqtt_trait/mod.rs 34, 39). -/
instance : Monad Rd where
  pure := Rd.pure
  bind := Rd.bind

/-- A reader that fails (packets/mqtt_trait/mod.rs 34, 39). -/
def fail {α} (e : Fail) : Rd α := fun _ => .error e

/-- `Err(e)?` / `return Err(e)` (packets/mqtt_trait/mod.rs 34, 39). -/
def de {α} (e : DeErr) : Rd α := fail (.de e)

end Rd

/-- A sync writer appends bytes to a `BytesMut` or fails (`Result<(), SerializeError>`).
Simplified: on failure the bytes already appended are dropped (every caller then drops the
connection and with it the buffer). packets/mqtt_trait/mod.rs 25-27, 42-44. -/
abbrev Wr := Except SerErr Bytes

/-- Sequential composition of writers. `?` and `;` of Rust between two writes (packets/mqtt_trait/mod.rs 43). -/
def Wr.append (x y : Wr) : Wr :=
  match x with
  | .error e => .error e
  | .ok a => match y with
    | .error e => .error e
    | .ok b => .ok (a ++ b)

/-- Notation for `Wr.append` (packets/mqtt_trait/mod.rs 43). -/
instance : HAppend Wr Wr Wr := ⟨Wr.append⟩

/-- An async writer: the bytes written to the stream and the count the code returns
(`Result<usize, WriteError>`). Simplified: I/O errors are not produced here (whether the
connection accepts the bytes is an input of the network model). packets/mqtt_trait/mod.rs 18-23, 54-58. -/
abbrev AWr := Except SerErr (Bytes × Nat)

/-- `?` and `+=` of Rust between two async writes (packets/mqtt_trait/mod.rs 57). -/
def AWr.append (x y : AWr) : AWr :=
  match x with
  | .error e => .error e
  | .ok (a, n) => match y with
    | .error e => .error e
    | .ok (b, m) => .ok (a ++ b, n + m)

/-- Notation for `AWr.append` (packets/mqtt_trait/mod.rs 57). -/
instance : HAppend AWr AWr AWr := ⟨AWr.append⟩

end Mqrstt
