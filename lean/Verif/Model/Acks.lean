import Verif.Model.Reason
/-!
# PUBACK, PUBREC, PUBREL, PUBCOMP, SUBACK, UNSUBACK

Source: `/repo/mqrstt/src/packets/{puback,pubrec,pubrel,pubcomp,suback,unsuback}/mod.rs`.

Simplification: the four Rust structs with the fields `packet_identifier`, `reason_code` and
`properties` share the Lean structure `Ack`, and the two with `reason_codes` share `CodesAck`;
readers and writers are kept apart.
-/

namespace Mqrstt

/-- `PubAck` puback/mod.rs 14-18, `PubRec` pubrec/mod.rs 22-26, `PubRel` pubrel/mod.rs 20-24,
`PubComp` pubcomp/mod.rs 20-24 -/
structure Ack where
  id : UInt16
  reason : Reason
  props : Props

/-- `SubAck` suback/mod.rs 21-25, `UnsubAck` unsuback/mod.rs 19-23 -/
structure CodesAck where
  id : UInt16
  props : Props
  codes : List Reason

namespace Ack

/-- `PubRec::new` pubrec/mod.rs 28-34, `PubRel::new` pubrel/mod.rs 27-33, `PubComp::new`
pubcomp/mod.rs 27-33; the `PubAck` literal in state_handler.rs 67-72 -/
def ofId (id : UInt16) : Ack := ⟨id, .success, .empty⟩

/-- `properties.reason_string.is_none() && properties.user_properties.is_empty()`, puback/mod.rs 95, 116, 132;
pubrec/mod.rs 105, 126, 141; pubrel/mod.rs 104, 125, 140; pubcomp/mod.rs 114, 135, 149 -/
def noProps (a : Ack) : Bool := (a.props.val .reasonString).isNone && a.props.users.isEmpty

/-! ## Writers: the four packets have the same code
puback/mod.rs 89-125, pubrec/mod.rs 99-135, pubrel/mod.rs 98-134, pubcomp/mod.rs 108-144;
properties writers puback/mod.rs 182-205 and `*/properties.rs`. -/

/-- `PacketWrite::write`, puback/mod.rs 89-103, pubrec/mod.rs 99-115, pubrel/mod.rs 98-114, pubcomp/mod.rs 108-125 -/
def write (a : Ack) : Wr :=
  (.ok (u16Bytes a.id) : Wr) ++
    (if a.reason = .success ∧ a.noProps then (.ok [] : Wr)
     else if a.noProps then a.reason.write
     else a.reason.write ++ Props.syncWrite ackEntries ackEntries .skip a.props)

/-- `PacketAsyncWrite::async_write`, puback/mod.rs 105-125, pubrec/mod.rs 117-135, pubrel/mod.rs 116-134, pubcomp/mod.rs
127-144 -/
def asyncWrite (a : Ack) : AWr :=
  (.ok (u16Bytes a.id, 2) : AWr) ++
    (if a.reason = .success ∧ a.noProps then (.ok ([], 0) : AWr)
     else if a.noProps then a.reason.asyncWrite
     else a.reason.asyncWrite ++ Props.asyncWrite ackEntries a.props)

/-- `WireLength::wire_len`: puback/mod.rs 127-141, pubrec/mod.rs 137-148, pubrel/mod.rs 136-147,
pubcomp/mod.rs 146-157 -/
def wireLen (a : Ack) : Nat :=
  if a.reason = .success ∧ a.noProps then 2
  else if a.noProps then 3
  else
    let propLen := a.props.wireLen ackEntries
    3 + VarInt.len propLen + propLen

/-! ## Readers -/

/-- `PubAck::read`, puback/mod.rs 64-87 -/
def readPubAck (remLen : Nat) : Rd Ack := do
  if remLen < 2 then Rd.de (.insufficientData (← bufLen) 2)
  else
    let id ← readU16
    if remLen = 2 then pure ⟨id, .success, .empty⟩
    else
      let r ← Reason.read Reason.pubAck
      let P ← if remLen = 3 then pure Props.empty else Props.syncRead pubAckSync
      pure ⟨id, r, P⟩

/-- `PubAck::async_read`, puback/mod.rs 21-62 -/
def asyncReadPubAck (remLen : Nat) : Rd (Ack × Nat) := do
  if remLen < 2 then Rd.de (.insufficientData remLen 2)
  else
    let id ← aU16
    if remLen = 2 then pure (⟨id, .success, .empty⟩, 2)
    else
      let (r, n) ← Reason.asyncRead Reason.pubAck
      let (P, m) ← if remLen = 3 then pure (Props.empty, 0) else Props.asyncRead ackEntries
      pure (⟨id, r, P⟩, 2 + n + m)

/-- `PubRec::read`, pubrec/mod.rs 37-62, and `PubComp::read`, pubcomp/mod.rs 37-62, which differ
in types only. -/
def readRecComp (codes : List Reason) (sp : Props.SyncSpec) (remLen : Nat) : Rd Ack := do
  if remLen = 2 then pure ⟨← readU16, .success, .empty⟩
  else if remLen < 4 then Rd.de (.insufficientData (← bufLen) 4)
  else
    let id ← readU16
    let r ← Reason.read codes
    let P ← Props.syncRead sp
    pure ⟨id, r, P⟩

/-- `PubRec::read`, pubrec/mod.rs 37-62 -/
def readPubRec (remLen : Nat) : Rd Ack := readRecComp Reason.pubRec pubRecSync remLen

/-- `PubComp::read`, pubcomp/mod.rs 37-62 -/
def readPubComp (remLen : Nat) : Rd Ack := readRecComp Reason.pubComp pubCompSync remLen

/-- `PubRec::async_read`, pubrec/mod.rs 64-97 -/
def asyncReadPubRec (remLen : Nat) : Rd (Ack × Nat) := do
  let id ← aU16
  if remLen = 2 then pure (⟨id, .success, .empty⟩, 2)
  else
    let (r, n) ← Reason.asyncRead Reason.pubRec
    let (P, m) ← Props.asyncRead ackEntries
    pure (⟨id, r, P⟩, 2 + (n + m))

/-- `PubComp::async_read`, pubcomp/mod.rs 64-106 -/
def asyncReadPubComp (remLen : Nat) : Rd (Ack × Nat) := do
  let id ← aU16
  if remLen = 2 then pure (⟨id, .success, .empty⟩, 2)
  else if remLen < 4 then Rd.de (.insufficientData 0 4)
  else
    let (r, n) ← Reason.asyncRead Reason.pubComp
    let (P, m) ← Props.asyncRead ackEntries
    let total := 2 + n + m
    if total ≠ remLen then Rd.de (.remainingDataError total remLen)
    else pure (⟨id, r, P⟩, total)

/-- `PubRel::read`, pubrel/mod.rs 36-59 -/
def readPubRel (remLen : Nat) : Rd Ack := do
  if remLen = 2 then pure ⟨← readU16, .success, .empty⟩
  else if remLen = 3 then
    let id ← readU16
    let r ← Reason.read Reason.pubRel
    pure ⟨id, r, .empty⟩
  else
    let id ← readU16
    let r ← Reason.read Reason.pubRel
    let P ← Props.syncRead pubRelSync
    pure ⟨id, r, P⟩

/-- `PubRel::async_read`, pubrel/mod.rs 61-96 -/
def asyncReadPubRel (remLen : Nat) : Rd (Ack × Nat) := do
  let id ← aU16
  if remLen = 2 then pure (⟨id, .success, .empty⟩, 2)
  else
    let (r, n) ← Reason.asyncRead Reason.pubRel
    if remLen = 3 then pure (⟨id, r, .empty⟩, 2 + n)
    else
      let (P, m) ← Props.asyncRead ackEntries
      pure (⟨id, r, P⟩, 2 + n + m)

end Ack

namespace CodesAck

/-- `PacketWrite::write`, suback/mod.rs 84-95, unsuback/mod.rs 84-94; `es` are the entries of the
properties of the packet -/
def write (es : List Entry) (a : CodesAck) : Wr :=
  (.ok (u16Bytes a.id) : Wr) ++ Props.syncWrite es es .skip a.props
    ++ (.ok (a.codes.map Reason.toU8) : Wr)

/-- `PacketAsyncWrite::async_write`, suback/mod.rs 97-116, unsuback/mod.rs 96-116 -/
def asyncWrite (es : List Entry) (a : CodesAck) : AWr :=
  (.ok (u16Bytes a.id, 2) : AWr) ++ Props.asyncWrite es a.props
    ++ (.ok (a.codes.map Reason.toU8, a.codes.length) : AWr)

/-- `WireLength::wire_len`, suback/mod.rs 118-122, unsuback/mod.rs 118-122 -/
def wireLen (es : List Entry) (a : CodesAck) : Nat :=
  2 + VarInt.len (a.props.wireLen es) + a.props.wireLen es + a.codes.length

/-- Loop of `SubAck::read`, suback/mod.rs 35-43 (`>=`) -/
def readCodesGe (codes : List Reason) (remLen : Nat) : (fuel read : Nat) → Rd (List Reason)
  | 0, _ => Rd.fail .fuel
  | fuel + 1, read => do
      if read ≥ remLen then pure []
      else
        let r ← Reason.read codes
        let rs ← readCodesGe codes remLen fuel (read + 1)
        pure (r :: rs)

/-- Loop of `UnsubAck::read`, unsuback/mod.rs 32-40 (`==`) -/
def readCodesEq (codes : List Reason) (remLen : Nat) : (fuel read : Nat) → Rd (List Reason)
  | 0, _ => Rd.fail .fuel
  | fuel + 1, read => do
      if read = remLen then pure []
      else
        let r ← Reason.read codes
        let rs ← readCodesEq codes remLen fuel (read + 1)
        pure (r :: rs)

/-- `SubAck::read`, suback/mod.rs 27-51: the number of bytes read so far is not counted but
recomputed by re-encoding the properties. -/
def readSubAck (remLen : Nat) : Rd CodesAck := do
  let id ← readU16
  let P ← Props.syncRead subAckSync
  let n := P.wireLen subscribeEntries
  let codes ← readCodesGe Reason.subAck remLen ((← bufLen) + 1) (2 + VarInt.len n + n)
  pure ⟨id, P, codes⟩

/-- `UnsubAck::read`, unsuback/mod.rs 25-48 -/
def readUnsubAck (remLen : Nat) : Rd CodesAck := do
  let id ← readU16
  let P ← Props.syncRead unsubAckSync
  let n := P.wireLen ackEntries
  let codes ← readCodesEq Reason.unsubAck remLen ((← bufLen) + 1) (2 + VarInt.len n + n)
  pure ⟨id, P, codes⟩

/-- Loop of `SubAck::async_read`, suback/mod.rs 62-70 (`==`) -/
def asyncCodesEq (codes : List Reason) (remLen : Nat) : (fuel total : Nat) → Rd (List Reason × Nat)
  | 0, _ => Rd.fail .fuel
  | fuel + 1, total => do
      if remLen = total then pure ([], total)
      else
        let (r, n) ← Reason.asyncRead codes
        let (rs, t) ← asyncCodesEq codes remLen fuel (total + n)
        pure (r :: rs, t)

/-- Loop of `UnsubAck::async_read`, unsuback/mod.rs 61-70 (`>=`) -/
def asyncCodesGe (codes : List Reason) (remLen : Nat) : (fuel total : Nat) → Rd (List Reason × Nat)
  | 0, _ => Rd.fail .fuel
  | fuel + 1, total => do
      if total ≥ remLen then pure ([], total)
      else
        let (r, n) ← Reason.asyncRead codes
        let (rs, t) ← asyncCodesGe codes remLen fuel (total + n)
        pure (r :: rs, t)

/-- `SubAck::async_read`, suback/mod.rs 53-82 -/
def asyncReadSubAck (remLen : Nat) : Rd (CodesAck × Nat) := do
  let id ← aU16
  let (P, n) ← Props.asyncRead subscribeEntries
  let (codes, t) ← asyncCodesEq Reason.subAck remLen ((← bufLen) + 1) (2 + n)
  pure (⟨id, P, codes⟩, t)

/-- `UnsubAck::async_read`, unsuback/mod.rs 50-82 -/
def asyncReadUnsubAck (remLen : Nat) : Rd (CodesAck × Nat) := do
  let id ← aU16
  let (P, n) ← Props.asyncRead ackEntries
  let (codes, t) ← asyncCodesGe Reason.unsubAck remLen ((← bufLen) + 1) (2 + n)
  pure (⟨id, P, codes⟩, t)

end CodesAck
end Mqrstt
