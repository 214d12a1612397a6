import Verif.Model.Prim
/-!
# Packet properties

Source: `/repo/mqrstt/src/packets/macros/properties_macros.rs` (the macro `define_properties!`,
which generates the struct, the async reader and writer and `wire_len` from a list of property
names) and the hand-written sync readers and writers in `/repo/mqrstt/src/packets/*/properties.rs`.

The macro is modelled once, parametrised by the list of names it is instantiated with.
-/

namespace Mqrstt

/-- Wire types of property values. `var` is a `u32` written as a variable byte integer. properties_macros.rs 68-296 (the
types of the fields). -/
inductive Kind where
  | u8 | u16 | u32 | str | bin | var | bool | qos
  deriving DecidableEq, Repr

namespace Kind

/-- The Rust type of a value of this kind. properties_macros.rs 68-296. -/
abbrev T : Kind → Type
  | u8 => UInt8 | u16 => UInt16 | u32 => UInt32 | str => Str | bin => Bytes
  | var => UInt32 | bool => Bool | qos => QoS

/-- equality of values, `derive(PartialEq)` of properties_macros.rs 63 -/
instance : (k : Kind) → DecidableEq k.T
  | u8 => inferInstanceAs (DecidableEq UInt8)
  | u16 => inferInstanceAs (DecidableEq UInt16)
  | u32 => inferInstanceAs (DecidableEq UInt32)
  | str => inferInstanceAs (DecidableEq Str)
  | bin => inferInstanceAs (DecidableEq (List UInt8))
  | var => inferInstanceAs (DecidableEq UInt32)
  | bool => inferInstanceAs (DecidableEq Bool)
  | qos => inferInstanceAs (DecidableEq QoS)

/-- sync reader of a value, as in the hand-written readers, e.g. connack/properties.rs 43-150, connect_properties.rs
92-150 -/
def read : (k : Kind) → Rd k.T
  | u8 => readU8 | u16 => readU16 | u32 => readU32 | str => readStr | bin => readBin
  | var => do pure (UInt32.ofNat (← VarInt.read).1)
  | bool => readBool | qos => readQoS

/-- sync reading of an integer with `get_u8`/`get_u16`/`get_u32` directly, without a length check
(connect_properties.rs 99-127); other kinds are never read this way. -/
def readUnchecked : (k : Kind) → Rd k.T
  | u8 => getU8 | u16 => getU16 | u32 => getU32
  | k => read k

/-- async reader of a value, with the number of bytes read, properties_macros.rs 298-547 -/
def asyncRead : (k : Kind) → Rd (k.T × Nat)
  | u8 => asyncReadU8 | u16 => asyncReadU16 | u32 => asyncReadU32 | str => asyncReadStr
  | bin => asyncReadBin
  | var => do
      let (v, n) ← VarInt.asyncRead
      pure (UInt32.ofNat v, n)
  | bool => asyncReadBool | qos => asyncReadQoS

/-- sync writer of a value, as in the hand-written writers, e.g. connack/properties.rs 157-255, connect_properties.rs
32-76 -/
def write : (k : Kind) → k.T → Wr
  | u8, v => .ok [v]
  | u16, v => .ok (u16Bytes v)
  | u32, v => .ok (u32Bytes v)
  | str, v => .ok (strBytes v)
  | bin, v => .ok (binBytes v)
  | var, v => VarInt.write v.toNat
  | bool, v => .ok (boolBytes v)
  | qos, v => .ok [v.toU8]

/-- async writer of a value with the count it returns, properties_macros.rs 558-728 -/
def asyncWrite : (k : Kind) → k.T → AWr
  | u8, v => .ok ([v], 1)
  | u16, v => .ok (u16Bytes v, 2)
  | u32, v => .ok (u32Bytes v, 4)
  | str, v => .ok (strBytes v, 2 + v.bytes.length)
  | bin, v => .ok (binBytes v, 2 + v.length)
  | var, v => VarInt.asyncWrite v.toNat
  | bool, v => .ok (boolBytes v, 1)
  | qos, v => .ok ([v.toU8], 1)

/-- what a value contributes to `wire_len` after the identifier byte, properties_macros.rs 730-885 -/
def wireLen : (k : Kind) → k.T → Nat
  | u8, _ => 1 | u16, _ => 2 | u32, _ => 4
  | str, v => strWireLen v
  | bin, v => binWireLen v
  | var, v => VarInt.len v.toNat
  | bool, _ => 1 | qos, _ => 1

end Kind

/-- The wire type of each property (field types in `properties_struct!`, properties_macros.rs 60-296).
`userProperty` holds a list of pairs and is not stored as a single value; its entry here is
never used. -/
@[reducible] def PropertyType.kind : PropertyType → Kind
  | .payloadFormatIndicator => .u8 | .messageExpiryInterval => .u32 | .contentType => .str
  | .responseTopic => .str | .correlationData => .bin | .subscriptionIdentifier => .var
  | .sessionExpiryInterval => .u32 | .assignedClientIdentifier => .str
  | .serverKeepAlive => .u16 | .authenticationMethod => .str | .authenticationData => .bin
  | .requestProblemInformation => .u8 | .willDelayInterval => .u32
  | .requestResponseInformation => .u8 | .responseInformation => .str
  | .serverReference => .str | .reasonString => .str | .receiveMaximum => .u16
  | .topicAliasMaximum => .u16 | .topicAlias => .u16 | .maximumQos => .qos
  | .retainAvailable => .bool | .userProperty => .str | .maximumPacketSize => .u32
  | .wildcardSubscriptionAvailable => .bool | .subscriptionIdentifierAvailable => .bool
  | .sharedSubscriptionAvailable => .bool

/-- The structs generated by `properties_struct!` (properties_macros.rs 60-296). A struct with one `Option` field per
listed property is represented as a function from property names; names that are not listed
are `none`. `subIds` is the field `subscription_identifiers` of `ListSubscriptionIdentifier`,
`users` the field `user_properties`. -/
@[ext] structure Props where
  val : (p : PropertyType) → Option p.kind.T
  subIds : List UInt32
  users : List (Str × Str)

namespace Props

/-- `Default::default()`, properties_macros.rs 63 -/
def empty : Props := ⟨fun _ => none, [], []⟩

/-- `Default` again (properties_macros.rs 63) -/
instance : Inhabited Props := ⟨empty⟩

/-- assignment to an optional field, properties_macros.rs 298-547 (the last line of each arm) -/
def set (P : Props) (p : PropertyType) (v : p.kind.T) : Props :=
  { P with val := fun q => if h : q = p then some (h ▸ v) else P.val q }

end Props

/-- An argument of `define_properties!`: a single-valued property, `ListSubscriptionIdentifier`
or `UserProperty`. properties_macros.rs 1-7. -/
inductive Entry where
  | single (p : PropertyType)
  | subIdList
  | user
  deriving DecidableEq, Repr

/-- Which identifier on the wire selects this entry (`properties_read_match_branch_name!`,
properties_macros.rs 549-556). -/
def Entry.wireType : Entry → PropertyType
  | .single p => p
  | .subIdList => .subscriptionIdentifier
  | .user => .userProperty

/-- first entry whose identifier is `t` (the `match` arms in order), properties_macros.rs 21-26, 549-556 -/
def Entry.select (es : List Entry) (t : PropertyType) : Option Entry :=
  es.find? (fun e => e.wireType = t)

namespace Props

/-! ## Generated async reader (8-34, 298-547) -/

/-- The property named in `DuplicateProperty` errors: the property itself except for two
copy-and-paste slips (properties_macros.rs 475-480, 509-512). -/
def asyncDupLabel : PropertyType → PropertyType
  | .topicAlias => .messageExpiryInterval
  | .maximumPacketSize => .retainAvailable
  | p => p

/-- One arm of the `match` (`properties_read_match_branch_body!`, properties_macros.rs 298-547): reads the value and
stores it; returns the number of bytes read. `SubscriptionIdentifier` has no duplicate check and
overwrites (343-347). -/
def asyncReadEntry (P : Props) : Entry → Rd (Props × Nat)
  | .single p => do
      if (P.val p).isSome ∧ p ≠ .subscriptionIdentifier then
        Rd.de (.duplicateProperty (asyncDupLabel p))
      else
        let (v, n) ← p.kind.asyncRead
        pure (P.set p v, n)
  | .subIdList => do
      let (v, n) ← VarInt.asyncRead
      pure ({ P with subIds := P.subIds ++ [UInt32.ofNat v] }, n)
  | .user => do
      let (k, n) ← asyncReadStr
      let (v, m) ← asyncReadStr
      pure ({ P with users := P.users ++ [(k, v)] }, n + m)

/-- The `loop` of `async_read`, properties_macros.rs 18-30: it stops only when the count of bytes read *equals* the
announced length. Unlisted properties are an error naming `PacketType::PubRel`, whatever the
packet (25). -/
def asyncLoop (es : List Entry) (len : Nat) : (fuel : Nat) → Props → (readBytes : Nat) → Rd (Props × Nat)
  | 0, _, _ => Rd.fail .fuel
  | fuel + 1, P, n => do
      let (t, m) ← PropertyType.asyncRead
      match Entry.select es t with
      | none => Rd.de (.unexpectedProperty t .pubRel)
      | some e =>
        let (P, k) ← asyncReadEntry P e
        let n := n + m + k
        if n = len then pure (P, n) else asyncLoop es len fuel P n

/-- `MqttAsyncRead::async_read` of a generated struct, properties_macros.rs 8-34. Each iteration consumes at least one
byte, so the length of the stream bounds the iterations. -/
def asyncRead (es : List Entry) : Rd (Props × Nat) := do
  let (len, lenLen) ← VarInt.asyncRead
  if len = 0 then pure (empty, lenLen)
  else
    let avail ← bufLen
    let (P, n) ← asyncLoop es len (avail + 1) empty 0
    pure (P, lenLen + n)

/-! ## Generated `wire_len` (48-56, 730-878) -/

/-- `!authentication_data.is_empty() && authentication_method.is_some()` (properties_macros.rs 622, 788) -/
def authDataWritten (P : Props) : Bool :=
  match P.val .authenticationData with
  | some d => !d.isEmpty && (P.val .authenticationMethod).isSome
  | none => false

/-- `properties_wire_length!`, properties_macros.rs 730-878 -/
def entryWireLen (P : Props) : Entry → Nat
  | .single .authenticationData =>
      match P.val .authenticationData with
      | some d => if P.authDataWritten then 1 + binWireLen d else 0
      | none => 0
  | .single p =>
      match P.val p with
      | some v => 1 + p.kind.wireLen v
      | none => 0
  | .subIdList => (P.subIds.map fun i => 1 + VarInt.len i.toNat).sum
  | .user => (P.users.map fun (k, v) => 1 + strWireLen k + strWireLen v).sum

/-- `wire_len`, properties_macros.rs 48-56 -/
def wireLen (es : List Entry) (P : Props) : Nat := (es.map P.entryWireLen).sum

/-! ## Generated async writer (36-46, 558-728) -/

/-- identifier byte followed by the value, both counted, properties_macros.rs 558-728 -/
def asyncItem (p : PropertyType) (v : AWr) : AWr := (.ok ([p.toU8], 1) : AWr) ++ v

/-- the properties one after the other, properties_macros.rs 40-42 -/
def asyncConcat (l : List AWr) : AWr := l.foldr (fun x y => x ++ y) (.ok ([], 0))

/-- `properties_write!`, properties_macros.rs 558-728. `AssignedClientIdentifier` writes nothing (607); the value of
`ServerReference` is written but not counted (655). -/
def asyncWriteEntry (P : Props) : Entry → AWr
  | .single .assignedClientIdentifier => .ok ([], 0)
  | .single .serverReference =>
      match P.val .serverReference with
      | some v => .ok (PropertyType.serverReference.toU8 :: strBytes v, 1)
      | none => .ok ([], 0)
  | .single .authenticationData =>
      match P.val .authenticationData with
      | some d =>
          if P.authDataWritten then asyncItem .authenticationData (Kind.asyncWrite .bin d)
          else .ok ([], 0)
      | none => .ok ([], 0)
  | .single p =>
      match P.val p with
      | some v => asyncItem p (p.kind.asyncWrite v)
      | none => .ok ([], 0)
  | .subIdList =>
      asyncConcat (P.subIds.map fun i => asyncItem .subscriptionIdentifier (VarInt.asyncWrite i.toNat))
  | .user =>
      asyncConcat (P.users.map fun (k, v) =>
        asyncItem .userProperty (Kind.asyncWrite .str k ++ Kind.asyncWrite .str v))

/-- `MqttAsyncWrite::async_write` of a generated struct, properties_macros.rs 36-46 -/
def asyncWrite (es : List Entry) (P : Props) : AWr :=
  VarInt.asyncWrite (P.wireLen es) ++ asyncConcat (es.map P.asyncWriteEntry)

/-! ## Hand-written sync readers (`*/properties.rs`, `puback/mod.rs` 150-180)

All follow one scheme; `SyncSpec` lists the points in which they differ. -/

/-- auth/properties.rs 19-63, connack/properties.rs 31-154, disconnect/properties.rs 12-55, publish/properties.rs 25-89
and so on -/
structure SyncSpec where
  /-- the properties that have a `match` arm -/
  entries : List Entry
  /-- the packet named in `UnexpectedProperty` -/
  packet : PacketType
  /-- the error when fewer than `len` bytes follow: `InsufficientData` or (AUTH) `MalformedPacket` -/
  shortIsMalformed : Bool := false
  /-- whether the loop runs on `buf.split_to(len)` (`true`) or directly on the whole remaining
  packet (`false`: PUBACK, PUBREC, PUBREL, PUBCOMP) -/
  split : Bool := true
  /-- the property named in `DuplicateProperty` -/
  dupLabel : PropertyType → PropertyType := id
  /-- properties whose duplicate check is inverted (`is_none()` for `is_some()`) -/
  inverted : List PropertyType := []
  /-- integers read with `get_uN` without a length check -/
  unchecked : Bool := false
  /-- the final check of CONNECT: non-empty authentication data needs a method -/
  authCheck : Bool := false

/-- One `match` arm of a sync reader. E.g. connack/properties.rs 45-146. -/
def syncReadEntry (sp : SyncSpec) (P : Props) : Entry → Rd Props
  | .single p => do
      let dup := if p ∈ sp.inverted then (P.val p).isNone else (P.val p).isSome
      if dup then Rd.de (.duplicateProperty (sp.dupLabel p))
      else
        let v ← if sp.unchecked then p.kind.readUnchecked else p.kind.read
        pure (P.set p v)
  | .subIdList => do
      let (v, _) ← VarInt.read
      pure { P with subIds := P.subIds ++ [UInt32.ofNat v] }
  | .user => do
      let k ← readStr
      let v ← readStr
      pure { P with users := P.users ++ [(k, v)] }

/-- The `loop` of a sync reader: until the buffer it works on is empty. `PropertyType::read(buf)`
and `PropertyType::try_from(u8::read(buf)?)?` behave alike. E.g. auth/properties.rs 32, connack/properties.rs 43,
publish/properties.rs 38, connect_properties.rs 92, last_will_properties.rs 35. -/
def syncLoop (sp : SyncSpec) : (fuel : Nat) → Props → Rd Props
  | 0, _ => Rd.fail .fuel
  | fuel + 1, P => do
      let t ← PropertyType.read
      match Entry.select sp.entries t with
      | none => Rd.de (.unexpectedProperty t sp.packet)
      | some e =>
        let P ← syncReadEntry sp P e
        if (← bufLen) = 0 then pure P else syncLoop sp fuel P

/-- Run a reader on a buffer of its own (`property_data`), which is dropped afterwards. E.g. auth/properties.rs 30,
connack/properties.rs 41, publish/properties.rs 34, connect_properties.rs 90. -/
def onSlice {α} (data : Bytes) (r : Rd α) : Rd α := fun b =>
  match r data with
  | .ok (a, _) => .ok (a, b)
  | .error e => .error e

/-- `MqttRead::read` of the hand-written readers. auth/properties.rs 19-63, connack/properties.rs 31-154,
disconnect/properties.rs 12-55, pubcomp/properties.rs 15-44, publish/properties.rs 25-89, pubrec/properties.rs 15-44,
pubrel/properties.rs 21-50, suback/properties.rs 17-53, subscribe/properties.rs 15-51, unsuback/properties.rs 13-47,
unsubscribe/properties.rs 16-43, connect_properties.rs 79-157, last_will_properties.rs 22-84, puback/mod.rs 150-180. -/
def syncRead (sp : SyncSpec) : Rd Props := do
  let (len, _) ← VarInt.read
  if len = 0 then pure empty
  else
    let avail ← bufLen
    if avail < len then
      Rd.de (if sp.shortIsMalformed then .malformedPacket else .insufficientData avail len)
    else
      let P ←
        if sp.split then do
          let data ← splitTo len
          onSlice data (syncLoop sp (data.length + 1) empty)
        else syncLoop sp (avail + 1) empty
      if sp.authCheck && ((P.val .authenticationData).any (fun d => !d.isEmpty))
          && (P.val .authenticationMethod).isNone then
        Rd.de .malformedPacketWithInfo
      else pure P

/-! ## Hand-written sync writers -/

/-- How a sync writer treats authentication data: AUTH writes it only when non-empty and a method
is present; CONNECT and CONNACK refuse it without a method and write it, even empty, with one. auth/properties.rs 66-92,
connack/properties.rs 157-255, connect_properties.rs 32-76. -/
inductive AuthMode where
  | skip | strict
  deriving DecidableEq

/-- the blocks of a writer one after the other, e.g. connack/properties.rs 157-255 -/
def syncConcat (l : List Wr) : Wr := l.foldr (fun x y => x ++ y) (.ok [])

/-- identifier and value, e.g. connack/properties.rs 157-255 -/
def syncItem (p : PropertyType) (v : Wr) : Wr := (.ok [p.toU8] : Wr) ++ v

/-- One `if let Some(..)` / `for` block of a sync writer. E.g. connack/properties.rs 157-255. -/
def syncWriteEntry (mode : AuthMode) (P : Props) : Entry → Wr
  | .single .authenticationData =>
      match P.val .authenticationData with
      | none => .ok []
      | some d =>
        match mode with
        | .skip =>
            if P.authDataWritten then syncItem .authenticationData (Kind.write .bin d) else .ok []
        | .strict =>
            if (P.val .authenticationMethod).isNone then .error .authDataWithoutAuthMethod
            else syncItem .authenticationData (Kind.write .bin d)
  | .single p =>
      match P.val p with
      | some v => syncItem p (p.kind.write v)
      | none => .ok []
  | .subIdList =>
      syncConcat (P.subIds.map fun i => syncItem .subscriptionIdentifier (VarInt.write i.toNat))
  | .user =>
      syncConcat (P.users.map fun (k, v) =>
        syncItem .userProperty (Kind.write .str k ++ Kind.write .str v))

/-- `MqttWrite::write` of the hand-written writers: the generated `wire_len` as a variable byte
integer, then the properties in the order `order` of the writer (`es` is the order of the macro). auth/properties.rs
66-92, connack/properties.rs 157-255, disconnect/properties.rs 58-80, pubcomp/properties.rs 47-64, publish/properties.rs
92-131, pubrec/properties.rs 47-64, pubrel/properties.rs 53-70, suback/properties.rs 56-69, subscribe/properties.rs
54-67, unsuback/properties.rs 50-63, unsubscribe/properties.rs 46-55, connect_properties.rs 32-76,
last_will_properties.rs 87-123, puback/mod.rs 182-200. -/
def syncWrite (es order : List Entry) (mode : AuthMode) (P : Props) : Wr :=
  VarInt.write (P.wireLen es) ++ syncConcat (order.map (P.syncWriteEntry mode))

end Props

/-! ## Tables per packet -/

open PropertyType in
/-- connect/connect_properties.rs 17-29 -/
def connectEntries : List Entry :=
  [.single sessionExpiryInterval, .single receiveMaximum, .single maximumPacketSize,
   .single topicAliasMaximum, .single requestResponseInformation,
   .single requestProblemInformation, .user, .single authenticationMethod,
   .single authenticationData]

/-- `ConnectProperties::read`, connect_properties.rs 79-157 -/
def connectSync : Props.SyncSpec :=
  { entries := connectEntries, packet := .connect, unchecked := true, authCheck := true }

/-- connect/last_will_properties.rs 10-20 -/
def willEntries : List Entry :=
  [.single .willDelayInterval, .single .payloadFormatIndicator, .single .messageExpiryInterval,
   .single .contentType, .single .responseTopic, .single .correlationData, .user]

/-- `LastWillProperties::read`, last_will_properties.rs 22-84; line 44 tests `is_none()` -/
def willSync : Props.SyncSpec :=
  { entries := willEntries, packet := .connect, inverted := [.payloadFormatIndicator] }

open PropertyType in
/-- connack/properties.rs 8-28 -/
def connAckEntries : List Entry :=
  [.single sessionExpiryInterval, .single receiveMaximum, .single maximumQos,
   .single retainAvailable, .single maximumPacketSize, .single assignedClientIdentifier,
   .single topicAliasMaximum, .single reasonString, .user,
   .single wildcardSubscriptionAvailable, .single subscriptionIdentifierAvailable,
   .single sharedSubscriptionAvailable, .single serverKeepAlive, .single responseInformation,
   .single serverReference, .single authenticationMethod, .single authenticationData]

/-- `ConnAckProperties::read`, connack/properties.rs 30-154 -/
def connAckSync : Props.SyncSpec := { entries := connAckEntries, packet := .connAck }

/-- auth/properties.rs 9-16 -/
def authEntries : List Entry :=
  [.single .authenticationMethod, .single .authenticationData, .single .reasonString, .user]

/-- `AuthProperties::read`, auth/properties.rs 18-63; line 36 names the wrong property -/
def authSync : Props.SyncSpec :=
  { entries := authEntries, packet := .auth, shortIsMalformed := true
    dupLabel := fun p => if p = .reasonString then .sessionExpiryInterval else p }

/-- publish/properties.rs 11-22 -/
def publishEntries : List Entry :=
  [.single .payloadFormatIndicator, .single .messageExpiryInterval, .single .contentType,
   .single .responseTopic, .single .correlationData, .subIdList, .single .topicAlias, .user]

/-- `PublishProperties::read`, publish/properties.rs 24-89 -/
def publishSync : Props.SyncSpec := { entries := publishEntries, packet := .publish }

/-- the order of `PublishProperties::write`, publish/properties.rs 91-131 -/
def publishOrder : List Entry :=
  [.single .payloadFormatIndicator, .single .messageExpiryInterval, .single .topicAlias,
   .single .responseTopic, .single .correlationData, .subIdList, .user, .single .contentType]

/-- disconnect/properties.rs 9 -/
def disconnectEntries : List Entry :=
  [.single .sessionExpiryInterval, .single .reasonString, .user, .single .serverReference]

/-- `DisconnectProperties::read`, disconnect/properties.rs 11-55 -/
def disconnectSync : Props.SyncSpec := { entries := disconnectEntries, packet := .disconnect }

/-- subscribe/properties.rs 7-12; suback/properties.rs 9-14 -/
def subscribeEntries : List Entry := [.single .subscriptionIdentifier, .user]

/-- `SubscribeProperties::read`, subscribe/properties.rs 14-49 -/
def subscribeSync : Props.SyncSpec := { entries := subscribeEntries, packet := .subscribe }

/-- `SubAckProperties::read`, suback/properties.rs 16-51 -/
def subAckSync : Props.SyncSpec := { entries := subscribeEntries, packet := .subAck }

/-- unsubscribe/properties.rs 9-13 -/
def unsubscribeEntries : List Entry := [.user]

/-- `UnsubscribeProperties::read`, unsubscribe/properties.rs 15-43 -/
def unsubscribeSync : Props.SyncSpec := { entries := unsubscribeEntries, packet := .unsubscribe }

/-- unsuback/properties.rs 5-10; puback/mod.rs 143-148; pubrec, pubrel, pubcomp/properties.rs 7-12 -/
def ackEntries : List Entry := [.single .reasonString, .user]

/-- `UnsubAckProperties::read`, unsuback/properties.rs 12-46; line 32 names the wrong property -/
def unsubAckSync : Props.SyncSpec :=
  { entries := ackEntries, packet := .unsubAck
    dupLabel := fun p => if p = .reasonString then .subscriptionIdentifier else p }

/-- `PubAckProperties::read`, puback/mod.rs 150-180 -/
def pubAckSync : Props.SyncSpec := { entries := ackEntries, packet := .pubAck, split := false }
/-- `PubRecProperties::read`, pubrec/properties.rs 14-44 -/
def pubRecSync : Props.SyncSpec := { entries := ackEntries, packet := .pubRec, split := false }
/-- `PubRelProperties::read`, pubrel/properties.rs 20-50 -/
def pubRelSync : Props.SyncSpec := { entries := ackEntries, packet := .pubRel, split := false }
/-- `PubCompProperties::read`, pubcomp/properties.rs 14-44 -/
def pubCompSync : Props.SyncSpec := { entries := ackEntries, packet := .pubComp, split := false }

end Mqrstt
