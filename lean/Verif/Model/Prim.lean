import Verif.Model.VarInt
/-!
# Primitive values

Source: `/repo/mqrstt/src/packets/mqtt_trait/primitive_impl.rs`,
`/repo/mqrstt/src/packets/primitive/qos.rs`, `.../protocol_version.rs`, `.../property_type.rs`.
-/

namespace Mqrstt

/-! ## UTF-8 -/

/-- Well-formed UTF-8 (Unicode table 3-7), the check made by `String::from_utf8` (std, trusted),
primitive_impl.rs 15, 28. -/
def validUtf8 : Bytes → Bool
  | [] => true
  | a :: r =>
    if a < 0x80 then validUtf8 r
    else match r with
    | [] => false
    | b :: r =>
      if 0xC2 ≤ a ∧ a ≤ 0xDF then
        if 0x80 ≤ b ∧ b ≤ 0xBF then validUtf8 r else false
      else match r with
      | [] => false
      | c :: r =>
        if 0xE0 ≤ a ∧ a ≤ 0xEF then
          if (if a = 0xE0 then 0xA0 else 0x80) ≤ b ∧ b ≤ (if a = 0xED then 0x9F else 0xBF)
              ∧ 0x80 ≤ c ∧ c ≤ 0xBF then validUtf8 r else false
        else match r with
        | [] => false
        | d :: r =>
          if 0xF0 ≤ a ∧ a ≤ 0xF4 then
            if (if a = 0xF0 then 0x90 else 0x80) ≤ b ∧ b ≤ (if a = 0xF4 then 0x8F else 0xBF)
                ∧ 0x80 ≤ c ∧ c ≤ 0xBF ∧ 0x80 ≤ d ∧ d ≤ 0xBF then validUtf8 r else false
          else false

/-- `Box<str>` / `&str`: a byte string known to be UTF-8; `len()` is the number of bytes. primitive_impl.rs 10-87. -/
structure Str where
  bytes : Bytes
  valid : validUtf8 bytes = true
  deriving DecidableEq

/-- for display in Lean only, no code (primitive_impl.rs 10-87) -/
instance : Repr Str := ⟨fun s n => reprPrec s.bytes n⟩

namespace Str

/-- `str::len`, primitive_impl.rs 35-59 -/
def length (s : Str) : Nat := s.bytes.length

/-- `"".into()`: the empty string (`Default` of `Box<str>`, connect_options.rs 50-80) -/
def empty : Str := ⟨[], rfl⟩

/-- the empty string, as above (connect_options.rs 50-80) -/
instance : Inhabited Str := ⟨empty⟩
end Str

/-! ## bytes::Buf / tokio integer accessors (big endian) -/

/-- `stream.read_u8().await?`, primitive_impl.rs 264 -/
def aU8 : Rd UInt8 := fun b =>
  match b with
  | [] => .error .eof
  | x :: b => .ok (x, b)

/-- big-endian composition of two bytes, primitive_impl.rs 283, 291 -/
def mkU16 (x y : UInt8) : UInt16 := UInt16.ofNat (x.toNat * 256 + y.toNat)

/-- big-endian composition of four bytes, primitive_impl.rs 317, 325 -/
def mkU32 (x y z w : UInt8) : UInt32 :=
  UInt32.ofNat (x.toNat * 16777216 + y.toNat * 65536 + z.toNat * 256 + w.toNat)

/-- `u16::to_be_bytes`, `put_u16`, primitive_impl.rs 294-309 -/
def u16Bytes (n : UInt16) : Bytes := [UInt8.ofNat (n.toNat / 256), UInt8.ofNat (n.toNat % 256)]

/-- `u32::to_be_bytes`, `put_u32`, primitive_impl.rs 328-342 -/
def u32Bytes (n : UInt32) : Bytes :=
  [UInt8.ofNat (n.toNat / 16777216), UInt8.ofNat (n.toNat / 65536 % 256),
   UInt8.ofNat (n.toNat / 256 % 256), UInt8.ofNat (n.toNat % 256)]

/-- `stream.read_u16().await?`, primitive_impl.rs 191, 291 -/
def aU16 : Rd UInt16 := fun b =>
  match b with
  | x :: y :: b => .ok (mkU16 x y, b)
  | _ => .error .eof

/-- `stream.read_u32().await?`, primitive_impl.rs 325 -/
def aU32 : Rd UInt32 := fun b =>
  match b with
  | x :: y :: z :: w :: b => .ok (mkU32 x y z w, b)
  | _ => .error .eof

/-- `buf.get_u8()` of `bytes::Buf`: panics on an empty buffer. primitive_impl.rs 206, 256. -/
def getU8 : Rd UInt8 := fun b =>
  match b with
  | [] => .error .panic
  | x :: b => .ok (x, b)

/-- `buf.get_u16()`: panics on a short buffer. primitive_impl.rs 151, 283. -/
def getU16 : Rd UInt16 := fun b =>
  match b with
  | x :: y :: b => .ok (mkU16 x y, b)
  | _ => .error .panic

/-- `buf.get_u32()`: panics on a short buffer. primitive_impl.rs 317. -/
def getU32 : Rd UInt32 := fun b =>
  match b with
  | x :: y :: z :: w :: b => .ok (mkU32 x y z w, b)
  | _ => .error .panic

/-- `buf.split_to(n)`: panics if `n > buf.len()`. primitive_impl.rs 157. -/
def splitTo (n : Nat) : Rd Bytes := fun b =>
  if n ≤ b.length then .ok (b.take n, b.drop n) else .error .panic

/-- `buf.len()`, primitive_impl.rs 148, 153, 280 -/
def bufLen : Rd Nat := fun b => .ok (b.length, b)

/-- `stream.read_exact(&mut data).await?` with `data.len() = n`, primitive_impl.rs 194 -/
def aExact (n : Nat) : Rd Bytes := fun b =>
  if n ≤ b.length then .ok (b.take n, b.drop n) else .error .eof

/-! ## u8, u16, u32, bool -/

/-- `u8::read`, primitive_impl.rs 250-258 -/
def readU8 : Rd UInt8 := do
  if (← bufLen) = 0 then Rd.de (.insufficientData 0 1) else getU8

/-- `u16::read`, primitive_impl.rs 277-285 -/
def readU16 : Rd UInt16 := do
  let n ← bufLen
  if n < 2 then Rd.de (.insufficientData n 2) else getU16

/-- `u32::read`, primitive_impl.rs 311-319 -/
def readU32 : Rd UInt32 := do
  let n ← bufLen
  if n < 4 then Rd.de (.insufficientData n 4) else getU32

/-- `bool::read`, primitive_impl.rs 200-212 -/
def readBool : Rd Bool := do
  if (← bufLen) = 0 then Rd.de (.insufficientData 0 1)
  else
    let x ← getU8
    if x = 0 then pure false else if x = 1 then pure true else Rd.de .malformedPacket

/-- `u8::async_read`, primitive_impl.rs 259-266 -/
def asyncReadU8 : Rd (UInt8 × Nat) := do pure ((← aU8), 1)
/-- `u16::async_read`, primitive_impl.rs 286-293 -/
def asyncReadU16 : Rd (UInt16 × Nat) := do pure ((← aU16), 2)
/-- `u32::async_read`, primitive_impl.rs 320-327 -/
def asyncReadU32 : Rd (UInt32 × Nat) := do pure ((← aU32), 4)
/-- `bool::async_read`, primitive_impl.rs 213-224 -/
def asyncReadBool : Rd (Bool × Nat) := do
  let x ← aU8
  if x = 0 then pure (false, 1) else if x = 1 then pure (true, 1) else Rd.de .malformedPacket

/-- `bool::write`, primitive_impl.rs 225-236 (async 237-249) -/
def boolBytes (b : Bool) : Bytes := if b then [1] else [0]

/-- `bool as u8`, connect_flags.rs 41-46, connack/mod.rs 140, subscribe/mod.rs 220 -/
def bit (b : Bool) : UInt8 := if b then 1 else 0

/-! ## binary data and strings -/

/-- `Vec<u8>::read`, primitive_impl.rs 145-159 -/
def readBin : Rd Bytes := do
  let n ← bufLen
  if n < 2 then Rd.de (.insufficientData n 2)
  else
    let len := (← getU16).toNat
    let m ← bufLen
    if len > m then Rd.de (.insufficientData m len) else splitTo len

/-- `Vec<u8>::async_read`, primitive_impl.rs 186-198. `read_exact` returns the size of the buffer, so the
`assert_eq!` holds. -/
def asyncReadBin : Rd (Bytes × Nat) := do
  let size := (← aU16).toNat
  let data ← aExact size
  pure (data, 2 + size)

/-- `String::from_utf8`, primitive_impl.rs 15, 28 -/
def fromUtf8 (b : Bytes) : Rd Str :=
  if h : validUtf8 b = true then pure ⟨b, h⟩ else Rd.de .utf8Error

/-- `Box<str>::read`, primitive_impl.rs 10-20 -/
def readStr : Rd Str := do fromUtf8 (← readBin)

/-- `Box<str>::async_read`, primitive_impl.rs 22-33 -/
def asyncReadStr : Rd (Str × Nat) := do
  let (content, n) ← asyncReadBin
  pure (← fromUtf8 content, n)

/-- `Vec<u8>::write`, primitive_impl.rs 160-168, and `async_write`, 169-179: `len as u16` truncates. -/
def binBytes (b : Bytes) : Bytes := u16Bytes (UInt16.ofNat b.length) ++ b

/-- `&str::write`, primitive_impl.rs 61-68; `Box<str>` 35-40; async 42-52, 70-80 -/
def strBytes (s : Str) : Bytes := binBytes s.bytes

/-- `wire_len` of `Vec<u8>`, primitive_impl.rs 180-185, of `&str`, 82-87 and `Box<str>`, 54-59 -/
def binWireLen (b : Bytes) : Nat := b.length + 2

/-- `wire_len` of strings, primitive_impl.rs 54-59, 82-87 -/
def strWireLen (s : Str) : Nat := s.bytes.length + 2

/-! ## QoS, protocol version -/

/-- `QoS`, qos.rs 11-17 -/
inductive QoS where
  | atMostOnce | atLeastOnce | exactlyOnce
  deriving DecidableEq, Repr

namespace QoS
/-- `QoS::from_u8`, qos.rs 19-26 -/
def fromU8 (v : UInt8) : Except DeErr QoS :=
  if v = 0 then .ok atMostOnce else if v = 1 then .ok atLeastOnce
  else if v = 2 then .ok exactlyOnce else .error (.unknownQoS v)
/-- `QoS::into_u8`, qos.rs 27-33 -/
def toU8 : QoS → UInt8
  | atMostOnce => 0 | atLeastOnce => 1 | exactlyOnce => 2
end QoS

/-- `Result::?` on a pure conversion inside a reader, qos.rs 38-60 -/
def Rd.lift {α} : Except DeErr α → Rd α
  | .ok a => pure a
  | .error e => Rd.de e

/-- `QoS::read`, qos.rs 36-50 -/
def readQoS : Rd QoS := do
  if (← bufLen) = 0 then Rd.de (.insufficientData 0 1) else Rd.lift (QoS.fromU8 (← getU8))

/-- `QoS::async_read`, qos.rs 52-65 -/
def asyncReadQoS : Rd (QoS × Nat) := do pure (← Rd.lift (QoS.fromU8 (← aU8)), 1)

/-- `ProtocolVersion::read`, protocol_version.rs 37-50 -/
def readProtocolVersion : Rd Unit := do
  if (← bufLen) = 0 then Rd.de .insufficientDataForProtocolVersion
  else
    let x ← getU8
    if x = 3 ∨ x = 4 then Rd.de .unsupportedProtocolVersion
    else if x = 5 then pure () else Rd.de .unknownProtocolVersion

/-- `ProtocolVersion::async_read`, protocol_version.rs 52-65 -/
def asyncReadProtocolVersion : Rd (Unit × Nat) := do
  let x ← aU8
  if x = 5 then pure ((), 1)
  else if x = 3 ∨ x = 4 then Rd.de .unsupportedProtocolVersion
  else Rd.de .unknownProtocolVersion

/-! ## Property identifiers -/

namespace PropertyType

/-- `From<&PropertyType> for u8`, property_type.rs 78-110; also the enum discriminants 11-39 -/
def toU8 : PropertyType → UInt8
  | payloadFormatIndicator => 1 | messageExpiryInterval => 2 | contentType => 3
  | responseTopic => 8 | correlationData => 9 | subscriptionIdentifier => 11
  | sessionExpiryInterval => 17 | assignedClientIdentifier => 18 | serverKeepAlive => 19
  | authenticationMethod => 21 | authenticationData => 22 | requestProblemInformation => 23
  | willDelayInterval => 24 | requestResponseInformation => 25 | responseInformation => 26
  | serverReference => 28 | reasonString => 31 | receiveMaximum => 33
  | topicAliasMaximum => 34 | topicAlias => 35 | maximumQos => 36 | retainAvailable => 37
  | userProperty => 38 | maximumPacketSize => 39 | wildcardSubscriptionAvailable => 40
  | subscriptionIdentifierAvailable => 41 | sharedSubscriptionAvailable => 42

/-- `TryFrom<u8> for PropertyType`, property_type.rs 41-76 -/
def fromU8 (v : UInt8) : Except DeErr PropertyType :=
  match v.toNat with
  | 1 => .ok payloadFormatIndicator | 2 => .ok messageExpiryInterval | 3 => .ok contentType
  | 8 => .ok responseTopic | 9 => .ok correlationData | 11 => .ok subscriptionIdentifier
  | 17 => .ok sessionExpiryInterval | 18 => .ok assignedClientIdentifier
  | 19 => .ok serverKeepAlive | 21 => .ok authenticationMethod | 22 => .ok authenticationData
  | 23 => .ok requestProblemInformation | 24 => .ok willDelayInterval
  | 25 => .ok requestResponseInformation | 26 => .ok responseInformation
  | 28 => .ok serverReference | 31 => .ok reasonString | 33 => .ok receiveMaximum
  | 34 => .ok topicAliasMaximum | 35 => .ok topicAlias | 36 => .ok maximumQos
  | 37 => .ok retainAvailable | 38 => .ok userProperty | 39 => .ok maximumPacketSize
  | 40 => .ok wildcardSubscriptionAvailable | 41 => .ok subscriptionIdentifierAvailable
  | 42 => .ok sharedSubscriptionAvailable
  | _ => .error (.unknownProperty v)

/-- `PropertyType::read`, property_type.rs 118-126 -/
def read : Rd PropertyType := do
  if (← bufLen) = 0 then Rd.de (.insufficientData 0 1) else Rd.lift (fromU8 (← getU8))

/-- `PropertyType::async_read`, property_type.rs 128-138 -/
def asyncRead : Rd (PropertyType × Nat) := do pure (← Rd.lift (fromU8 (← aU8)), 1)

end PropertyType

end Mqrstt
