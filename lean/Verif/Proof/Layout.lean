import Verif.Proof.Property
import Verif.Spec.Exceptions
/-! # The layout of a packet body, and that both writers produce it -/

namespace Mqrstt
open Spec

/-- variable byte integer; junk when out of range -/
def vbi (n : Nat) : Bytes :=
  match VarInt.write n with
  | .ok b => b
  | .error _ => []

theorem write_vbi {n : Nat} (h : n ≤ 268435455) : VarInt.write n = .ok (vbi n) := by
  obtain ⟨bs, e⟩ := VarInt.write_of_le n h
  simp only [vbi, e]

theorem asyncWrite_vbi {n : Nat} (h : n ≤ 268435455) :
    VarInt.asyncWrite n = .ok (vbi n, (vbi n).length) :=
  (VarInt.write_ok_iff _ _ (write_vbi h)).2.2.1

theorem vbi_length {n : Nat} (h : n ≤ 268435455) : (vbi n).length = VarInt.len n :=
  (VarInt.write_ok_iff _ _ (write_vbi h)).2.1

/-- a property section: length and items -/
def Props.sect (es order : List Entry) (P : Props) : Bytes :=
  vbi (P.wireLen es) ++ (P.items order).flatMap Item.bytes

structure SectOk (es order : List Entry) (P : Props) : Prop where
  wf : PropsWF es P
  auth : AuthDataNonempty P
  fit : P.wireLen es ≤ 268435455
  nodup : (es.map Entry.wireType).Nodup
  perm : order.Perm es

namespace SectOk
variable {es order : List Entry} {P : Props} (h : SectOk es order P)
include h

theorem length : (P.sect es order).length = VarInt.len (P.wireLen es) + P.wireLen es := by
  rw [Props.sect, List.length_append, vbi_length h.fit, Props.items_length P h.wf h.auth,
    Props.wireLen_perm h.perm]

theorem syncWrite (mode : Props.AuthMode) : P.syncWrite es order mode = .ok (P.sect es order) := by
  rw [Props.syncWrite_eq P h.wf h.auth, write_vbi h.fit]; rfl

theorem syncRead {sp : Props.SyncSpec} (hes : sp.entries = es)
    (hinv : ∀ p ∈ sp.inverted, P.val p = none) (rest : Bytes)
    (hs : sp.split = true ∨ rest = []) :
    Props.syncRead sp (P.sect es order ++ rest) = .ok (P, rest) := by
  rw [Props.sect, List.append_assoc]
  exact Props.syncRead_items h.wf h.auth hes h.nodup h.perm hinv (write_vbi h.fit) rest hs

theorem asyncRead (rest : Bytes) :
    Props.asyncRead es (P.sect es order ++ rest) = .ok ((P, (P.sect es order).length), rest) := by
  rw [Props.sect, List.append_assoc,
    Props.asyncRead_items h.wf h.auth h.nodup h.perm (write_vbi h.fit) rest, List.length_append]

end SectOk

theorem SectOk.asyncWrite {es : List Entry} {P : Props} (h : SectOk es es P)
    (hc : P.val .assignedClientIdentifier = none) :
    ∃ n, P.asyncWrite es = .ok (P.sect es es, n) ∧
      (P.val .serverReference = none → n = (P.sect es es).length) := by
  obtain ⟨n, e, hn⟩ := Props.asyncWrite_eq P h.wf h.auth hc es
  rw [asyncWrite_vbi h.fit] at e
  refine ⟨_, e, fun hs => ?_⟩
  rw [hn hs, Props.sect, List.length_append]

/-! ## Bodies -/

def ackBody (a : Ack) : Bytes :=
  u16Bytes a.id ++
    (if a.reason = .success ∧ a.noProps then []
     else if a.noProps then [a.reason.toU8]
     else a.reason.toU8 :: a.props.sect ackEntries ackEntries)

def codesAckBody (es : List Entry) (a : CodesAck) : Bytes :=
  u16Bytes a.id ++ (a.props.sect es es ++ a.codes.map Reason.toU8)

def willBody (w : LastWill) : Bytes :=
  w.props.sect willEntries willEntries ++ (strBytes w.topic ++ binBytes w.payload)

def optWillBody : Option LastWill → Bytes
  | some w => willBody w
  | none => []

/-- the body of a packet; `ord` is the order in which the properties of a PUBLISH are written -/
def Packet.bodyBytes (ord : List Entry) : Packet → Bytes
  | .connect c => binBytes Connect.protocolName ++ (5 :: c.flags.toU8 :: (u16Bytes c.keepAlive ++
      (c.props.sect connectEntries connectEntries ++ (strBytes c.clientId ++
        (optWillBody c.lastWill ++ (Connect.optStrBytes c.username ++
          Connect.optStrBytes c.password))))))
  | .connAck c => boolBytes c.sessionPresent ++ (c.reason.toU8 ::
      c.props.sect connAckEntries connAckEntries)
  | .publish p => strBytes p.topic ++ (Publish.pkidBytes p.pkid ++
      (p.props.sect publishEntries ord ++ p.payload))
  | .pubAck a | .pubRec a | .pubRel a | .pubComp a => ackBody a
  | .subscribe s => u16Bytes s.id ++ (s.props.sect subscribeEntries subscribeEntries ++
      Subscribe.topicBytes s.topics)
  | .subAck a => codesAckBody subscribeEntries a
  | .unsubscribe s => u16Bytes s.id ++ (s.props.sect unsubscribeEntries unsubscribeEntries ++
      s.topics.flatMap strBytes)
  | .unsubAck a => codesAckBody ackEntries a
  | .pingReq => []
  | .pingResp => []
  | .disconnect d => if Disconnect.isLong d then
      d.reason.toU8 :: d.props.sect disconnectEntries disconnectEntries else []
  | .auth a => a.reason.toU8 :: a.props.sect authEntries authEntries

/-- well-formed, fits MQTT's maximum packet length, no empty authentication data -/
structure BodyOk (p : Packet) : Prop where
  wf : WF p
  fit : p.bodyWireLen ≤ 268435455
  auth : ∀ P ∈ Spec.propSets p, AuthDataNonempty P

theorem nodup_tables :
    (connectEntries.map Entry.wireType).Nodup ∧ (willEntries.map Entry.wireType).Nodup ∧
    (connAckEntries.map Entry.wireType).Nodup ∧ (authEntries.map Entry.wireType).Nodup ∧
    (publishEntries.map Entry.wireType).Nodup ∧ (disconnectEntries.map Entry.wireType).Nodup ∧
    (subscribeEntries.map Entry.wireType).Nodup ∧ (unsubscribeEntries.map Entry.wireType).Nodup ∧
    (ackEntries.map Entry.wireType).Nodup := by decide

theorem publishOrder_perm : publishOrder.Perm publishEntries := by decide

theorem ack_noProps_eq {a : Ack} (h : PropsWF ackEntries a.props) (hn : a.noProps = true) :
    a.props = .empty := by
  simp only [Ack.noProps, Bool.and_eq_true, Option.isNone_iff_eq_none, List.isEmpty_iff] at hn
  apply Props.ext
  · funext q
    simp only [Props.empty]
    by_cases hq : q = .reasonString
    · subst hq; exact hn.1
    · cases hv : a.props.val q with
      | none => rfl
      | some v =>
        have := h.listed q (by simp [hv])
        simp [ackEntries, hq] at this
  · cases hs : a.props.subIds with
    | nil => rfl
    | cons x l =>
      have := h.listedIds (by simp [hs])
      simp [ackEntries] at this
  · exact hn.2

/-- the section of a property set listed without `Props.AuthDataNonempty` issues -/
theorem SectOk.mk' {es order : List Entry} {P : Props} (h : PropsWF es P)
    (ha : AuthDataNonempty P) (hf : P.wireLen es ≤ 268435455)
    (hd : (es.map Entry.wireType).Nodup) (hp : order.Perm es) : SectOk es order P :=
  ⟨h, ha, hf, hd, hp⟩

namespace BodyOk

/-! ### The sections of a well-formed packet -/

theorem connectSect {c : Connect} (h : BodyOk (.connect c)) :
    SectOk connectEntries connectEntries c.props := by
  refine ⟨h.wf.1, h.auth _ (by simp [Spec.propSets]), ?_, nodup_tables.1, .refl _⟩
  have := h.fit
  simp only [Packet.bodyWireLen, Connect.wireLen] at this
  omega

theorem willSect {c : Connect} (h : BodyOk (.connect c)) {w : LastWill}
    (hw : c.lastWill = some w) : SectOk willEntries willEntries w.props := by
  refine ⟨(h.wf.2.2.1 w hw).1, h.auth _ (by simp [Spec.propSets, hw]), ?_, nodup_tables.2.1, .refl _⟩
  have := h.fit
  simp only [Packet.bodyWireLen, Connect.wireLen, hw, LastWill.wireLen] at this
  omega

theorem connAckSect {c : ConnAck} (h : BodyOk (.connAck c)) :
    SectOk connAckEntries connAckEntries c.props := by
  refine ⟨h.wf.2, h.auth _ (by simp [Spec.propSets]), ?_, nodup_tables.2.2.1, .refl _⟩
  have := h.fit
  simp only [Packet.bodyWireLen, ConnAck.wireLen] at this
  omega

theorem authSect {a : ReasonProps} (h : BodyOk (.auth a)) :
    SectOk authEntries authEntries a.props := by
  refine ⟨h.wf.2, h.auth _ (by simp [Spec.propSets]), ?_, nodup_tables.2.2.2.1, .refl _⟩
  have := h.fit
  simp only [Packet.bodyWireLen, Auth.wireLen] at this
  omega

theorem publishSect {p : Publish} (h : BodyOk (.publish p)) {ord : List Entry}
    (ho : ord.Perm publishEntries) : SectOk publishEntries ord p.props := by
  refine ⟨h.wf.2.2, h.auth _ (by simp [Spec.propSets]), ?_, nodup_tables.2.2.2.2.1, ho⟩
  have := h.fit
  simp only [Packet.bodyWireLen, Publish.wireLen] at this
  omega

theorem disconnectSect {d : ReasonProps} (h : BodyOk (.disconnect d)) :
    SectOk disconnectEntries disconnectEntries d.props := by
  refine ⟨h.wf.2, h.auth _ (by simp [Spec.propSets]), ?_, nodup_tables.2.2.2.2.2.1, .refl _⟩
  have := h.fit
  simp only [Packet.bodyWireLen, Disconnect.wireLen] at this
  split at this
  · omega
  · rename_i hl
    simp only [Disconnect.isLong, Bool.or_eq_true, not_or, decide_eq_true_eq] at hl
    have : d.props.wireLen disconnectEntries = 0 := by omega
    omega

theorem subscribeSect {s : Subscribe} (h : BodyOk (.subscribe s)) :
    SectOk subscribeEntries subscribeEntries s.props := by
  refine ⟨h.wf.1, h.auth _ (by simp [Spec.propSets]), ?_, nodup_tables.2.2.2.2.2.2.1, .refl _⟩
  have := h.fit
  simp only [Packet.bodyWireLen, Subscribe.wireLen] at this
  omega

theorem unsubscribeSect {s : Unsubscribe} (h : BodyOk (.unsubscribe s)) :
    SectOk unsubscribeEntries unsubscribeEntries s.props := by
  refine ⟨h.wf.1, h.auth _ (by simp [Spec.propSets]), ?_, nodup_tables.2.2.2.2.2.2.2.1, .refl _⟩
  have := h.fit
  simp only [Packet.bodyWireLen, Unsubscribe.wireLen] at this
  omega

theorem subAckSect {a : CodesAck} (h : BodyOk (.subAck a)) :
    SectOk subscribeEntries subscribeEntries a.props := by
  refine ⟨h.wf.2, h.auth _ (by simp [Spec.propSets]), ?_, nodup_tables.2.2.2.2.2.2.1, .refl _⟩
  have := h.fit
  simp only [Packet.bodyWireLen, CodesAck.wireLen] at this
  omega

theorem unsubAckSect {a : CodesAck} (h : BodyOk (.unsubAck a)) :
    SectOk ackEntries ackEntries a.props := by
  refine ⟨h.wf.2, h.auth _ (by simp [Spec.propSets]), ?_, nodup_tables.2.2.2.2.2.2.2.2, .refl _⟩
  have := h.fit
  simp only [Packet.bodyWireLen, CodesAck.wireLen] at this
  omega

end BodyOk

theorem ackSect {codes : List Reason} {a : Ack} (h : AckWF codes a)
    (hf : a.wireLen ≤ 268435455) (ha : AuthDataNonempty a.props) :
    SectOk ackEntries ackEntries a.props := by
  refine ⟨h.2, ha, ?_, nodup_tables.2.2.2.2.2.2.2.2, .refl _⟩
  simp only [Ack.wireLen] at hf
  by_cases hn : a.noProps = true
  · rw [ack_noProps_eq h.2 hn]
    decide
  · simp only [hn] at hf
    simp at hf
    omega

/-! ### Length -/

theorem ackBody_length {codes : List Reason} {a : Ack} (h : AckWF codes a)
    (hf : a.wireLen ≤ 268435455) (ha : AuthDataNonempty a.props) :
    (ackBody a).length = a.wireLen := by
  have hs := (ackSect h hf ha).length
  unfold ackBody Ack.wireLen
  split
  · simp
  · split
    · simp
    · simp [hs]; omega

theorem optWillBody_length {c : Connect} (h : BodyOk (.connect c)) :
    (optWillBody c.lastWill).length =
      match c.lastWill with | some w => w.wireLen | none => 0 := by
  cases hw : c.lastWill with
  | none => rfl
  | some w =>
    have := (h.willSect hw).length
    simp only [optWillBody, willBody, List.length_append, this, LastWill.wireLen, strWireLen,
      binWireLen, strBytes_length, binBytes_length]
    omega

theorem optStrBytes_length (s : Option Str) :
    (Connect.optStrBytes s).length = match s with | some s => strWireLen s | none => 0 := by
  cases s <;> simp [Connect.optStrBytes, strWireLen]

theorem topicBytes_length (ts : List (Str × SubOptions)) :
    (Subscribe.topicBytes ts).length = (ts.map fun (t, _) => strWireLen t + 1).sum := by
  unfold Subscribe.topicBytes
  induction ts with
  | nil => rfl
  | cons t ts ih => simp [strWireLen] at ih ⊢; omega

theorem strsBytes_length (ts : List Str) : (ts.flatMap strBytes).length = (ts.map strWireLen).sum := by
  induction ts with
  | nil => rfl
  | cons t ts ih => simp [strWireLen] at ih ⊢; omega

theorem codesAckBody_length {es : List Entry} {a : CodesAck} (h : SectOk es es a.props) :
    (codesAckBody es a).length = a.wireLen es := by
  have := h.length
  simp [codesAckBody, CodesAck.wireLen, this]; omega

theorem BodyOk.length {p : Packet} (h : BodyOk p) {ord : List Entry}
    (ho : ord.Perm publishEntries) : (p.bodyBytes ord).length = p.bodyWireLen := by
  cases p with
  | connect c =>
    have h1 := h.connectSect.length
    have h2 := optWillBody_length h
    have h3 := optStrBytes_length c.username
    have h4 := optStrBytes_length c.password
    simp only [Packet.bodyBytes, Packet.bodyWireLen, Connect.wireLen, List.length_append,
      List.length_cons, h1, h2, h3, h4, binBytes_length, strBytes_length, u16Bytes_length]
    cases c.lastWill <;> cases c.username <;> cases c.password <;>
      simp only [strWireLen, binWireLen] <;> omega
  | connAck c =>
    have h1 := h.connAckSect.length
    simp only [Packet.bodyBytes, Packet.bodyWireLen, ConnAck.wireLen, List.length_append,
      List.length_cons, h1, boolBytes_length]
    omega
  | publish p =>
    have h1 := (h.publishSect ho).length
    have h2 : (Publish.pkidBytes p.pkid).length = if p.pkid.isSome then 2 else 0 := by
      cases p.pkid <;> rfl
    simp only [Packet.bodyBytes, Packet.bodyWireLen, Publish.wireLen, List.length_append, h1, h2,
      strBytes_length, strWireLen]
    omega
  | pubAck a => exact ackBody_length h.wf h.fit (h.auth _ (by simp [Spec.propSets]))
  | pubRec a => exact ackBody_length h.wf h.fit (h.auth _ (by simp [Spec.propSets]))
  | pubRel a => exact ackBody_length h.wf h.fit (h.auth _ (by simp [Spec.propSets]))
  | pubComp a => exact ackBody_length h.wf h.fit (h.auth _ (by simp [Spec.propSets]))
  | subscribe s =>
    have h1 := h.subscribeSect.length
    simp only [Packet.bodyBytes, Packet.bodyWireLen, Subscribe.wireLen, List.length_append, h1,
      u16Bytes_length, topicBytes_length]
    omega
  | subAck a => exact codesAckBody_length h.subAckSect
  | unsubscribe s =>
    have h1 := h.unsubscribeSect.length
    simp only [Packet.bodyBytes, Packet.bodyWireLen, Unsubscribe.wireLen, List.length_append, h1,
      u16Bytes_length, strsBytes_length]
    omega
  | unsubAck a => exact codesAckBody_length h.unsubAckSect
  | pingReq => rfl
  | pingResp => rfl
  | disconnect d =>
    have h1 := h.disconnectSect.length
    simp only [Packet.bodyBytes, Packet.bodyWireLen, Disconnect.wireLen]
    split
    · simp [h1]; omega
    · rfl
  | auth a =>
    have h1 := h.authSect.length
    simp only [Packet.bodyBytes, Packet.bodyWireLen, Auth.wireLen, List.length_cons, h1]
    omega

/-! ### Writers -/

theorem ack_write {codes : List Reason} {a : Ack} (h : AckWF codes a)
    (hf : a.wireLen ≤ 268435455) (ha : AuthDataNonempty a.props) : a.write = .ok (ackBody a) := by
  unfold Ack.write ackBody
  split
  · rfl
  · split
    · rfl
    · rw [(ackSect h hf ha).syncWrite]; rfl

theorem BodyOk.write {p : Packet} (h : BodyOk p) : p.bodyWrite = .ok (p.bodyBytes publishOrder) := by
  cases p with
  | connect c =>
    simp only [Packet.bodyWrite, Connect.write, h.connectSect.syncWrite]
    cases hw : c.lastWill with
    | none => simp [Packet.bodyBytes, optWillBody, hw]
    | some w =>
      simp only [LastWill.write, (h.willSect hw).syncWrite]
      simp [Packet.bodyBytes, optWillBody, willBody, hw]
  | connAck c =>
    simp only [Packet.bodyWrite, ConnAck.write, h.connAckSect.syncWrite]
    simp [Packet.bodyBytes, Reason.write]
  | publish p =>
    simp only [Packet.bodyWrite, Publish.write, (h.publishSect publishOrder_perm).syncWrite]
    simp [Packet.bodyBytes]
  | pubAck a => exact ack_write h.wf h.fit (h.auth _ (by simp [Spec.propSets]))
  | pubRec a => exact ack_write h.wf h.fit (h.auth _ (by simp [Spec.propSets]))
  | pubRel a => exact ack_write h.wf h.fit (h.auth _ (by simp [Spec.propSets]))
  | pubComp a => exact ack_write h.wf h.fit (h.auth _ (by simp [Spec.propSets]))
  | subscribe s =>
    simp only [Packet.bodyWrite, Subscribe.write, h.subscribeSect.syncWrite]
    simp [Packet.bodyBytes]
  | subAck a =>
    simp only [Packet.bodyWrite, CodesAck.write, h.subAckSect.syncWrite]
    simp [Packet.bodyBytes, codesAckBody]
  | unsubscribe s =>
    simp only [Packet.bodyWrite, Unsubscribe.write, h.unsubscribeSect.syncWrite]
    simp [Packet.bodyBytes]
  | unsubAck a =>
    simp only [Packet.bodyWrite, CodesAck.write, h.unsubAckSect.syncWrite]
    simp [Packet.bodyBytes, codesAckBody]
  | pingReq => rfl
  | pingResp => rfl
  | disconnect d =>
    simp only [Packet.bodyWrite, Disconnect.write, h.disconnectSect.syncWrite, Packet.bodyBytes]
    split <;> rfl
  | auth a =>
    simp only [Packet.bodyWrite, Auth.write, h.authSect.syncWrite]
    rfl

theorem ack_asyncWrite {codes : List Reason} {a : Ack} (h : AckWF codes a)
    (hf : a.wireLen ≤ 268435455) (ha : AuthDataNonempty a.props) :
    a.asyncWrite = .ok (ackBody a, (ackBody a).length) := by
  have hc : ∀ p, p ≠ .reasonString → a.props.val p = none := by
    intro p hp
    cases hv : a.props.val p with
    | none => rfl
    | some v =>
      have := h.2.listed p (by simp [hv])
      simp [ackEntries, hp] at this
  obtain ⟨n, e, hn⟩ := (ackSect h hf ha).asyncWrite (hc _ (by decide))
  have hn := hn (hc _ (by decide))
  subst hn
  unfold Ack.asyncWrite ackBody
  split
  · rfl
  · split
    · rfl
    · rw [e]; simp [Reason.asyncWrite]; omega

theorem sum_topics (ts : List (Str × SubOptions)) :
    (ts.map fun (t, _) => 2 + t.length + 1).sum = (Subscribe.topicBytes ts).length := by
  rw [topicBytes_length]
  congr 1
  apply List.map_congr_left
  intro t _
  simp [strWireLen, Str.length]; omega

theorem sum_strs (ts : List Str) :
    (ts.map fun t => 2 + t.length).sum = (ts.flatMap strBytes).length := by
  rw [strsBytes_length]
  congr 1
  apply List.map_congr_left
  intro t _
  simp [strWireLen, Str.length]; omega

theorem optStrCount_eq (s : Option Str) : Connect.optStrCount s = (Connect.optStrBytes s).length := by
  cases s <;> simp [Connect.optStrCount, Connect.optStrBytes, Str.length]; omega

theorem BodyOk.asyncWrite {p : Packet} (h : BodyOk p) (hc' : ¬ HasAssignedId p) :
    ∃ n, p.bodyAsyncWrite = .ok (p.bodyBytes publishEntries, n) ∧
      (¬ HasServerRef p → n = (p.bodyBytes publishEntries).length) := by
  have hc : ∀ P ∈ Spec.propSets p, P.val .assignedClientIdentifier = none := by
    simpa [HasAssignedId] using hc'
  have hsr : ¬ HasServerRef p → ∀ P ∈ Spec.propSets p, P.val .serverReference = none := by
    simp [HasServerRef]
  cases p with
  | connect c =>
    obtain ⟨n, e, hn⟩ := h.connectSect.asyncWrite (hc _ (by simp [Spec.propSets]))
    cases hw : c.lastWill with
    | none =>
      refine ⟨_, by simp only [Packet.bodyAsyncWrite, Connect.asyncWrite, e, hw, Packet.bodyBytes, optWillBody]; simp; exact ⟨rfl, rfl⟩, ?_⟩
      intro hs
      replace hs := hsr hs
      have hn := hn (hs _ (by simp [Spec.propSets]))
      simp [Packet.bodyBytes, hn, hw, optWillBody, optStrCount_eq, Connect.protocolName, Str.length]; omega
    | some w =>
      obtain ⟨m, e2, hm⟩ := (h.willSect hw).asyncWrite (hc _ (by simp [Spec.propSets, hw]))
      refine ⟨_, by simp only [Packet.bodyAsyncWrite, Connect.asyncWrite, e, e2, hw, Packet.bodyBytes, optWillBody, LastWill.asyncWrite, willBody]; simp; exact ⟨rfl, rfl⟩, ?_⟩
      intro hs
      replace hs := hsr hs
      have hn := hn (hs _ (by simp [Spec.propSets]))
      have hm := hm (hs _ (by simp [Spec.propSets, hw]))
      simp [Packet.bodyBytes, hn, hm, hw, optWillBody, willBody, optStrCount_eq, Connect.protocolName, Str.length]; omega
  | connAck c =>
    obtain ⟨n, e, hn⟩ := h.connAckSect.asyncWrite (hc _ (by simp [Spec.propSets]))
    refine ⟨_, by simp only [Packet.bodyAsyncWrite, ConnAck.asyncWrite, e, Reason.asyncWrite]; simp; exact ⟨rfl, rfl⟩, ?_⟩
    intro hs
    replace hs := hsr hs
    have hn := hn (hs _ (by simp [Spec.propSets]))
    simp [Packet.bodyBytes, hn]; omega
  | publish p =>
    obtain ⟨n, e, hn⟩ := (h.publishSect (.refl _)).asyncWrite (hc _ (by simp [Spec.propSets]))
    refine ⟨_, by simp only [Packet.bodyAsyncWrite, Publish.asyncWrite, e]; simp; exact ⟨rfl, rfl⟩, ?_⟩
    intro hs
    replace hs := hsr hs
    have hn := hn (hs _ (by simp [Spec.propSets]))
    cases hp : p.pkid <;>
      simp [Packet.bodyBytes, hn, hp, Publish.pkidBytes, Str.length] <;> omega
  | pubAck a => exact ⟨_, ack_asyncWrite h.wf h.fit (h.auth _ (by simp [Spec.propSets])), fun _ => rfl⟩
  | pubRec a => exact ⟨_, ack_asyncWrite h.wf h.fit (h.auth _ (by simp [Spec.propSets])), fun _ => rfl⟩
  | pubRel a => exact ⟨_, ack_asyncWrite h.wf h.fit (h.auth _ (by simp [Spec.propSets])), fun _ => rfl⟩
  | pubComp a => exact ⟨_, ack_asyncWrite h.wf h.fit (h.auth _ (by simp [Spec.propSets])), fun _ => rfl⟩
  | subscribe s =>
    obtain ⟨n, e, hn⟩ := h.subscribeSect.asyncWrite (hc _ (by simp [Spec.propSets]))
    refine ⟨_, by simp only [Packet.bodyAsyncWrite, Subscribe.asyncWrite, e, sum_topics]; simp; exact ⟨rfl, rfl⟩, ?_⟩
    intro hs
    replace hs := hsr hs
    have hn := hn (hs _ (by simp [Spec.propSets]))
    simp only [Packet.bodyBytes, hn, List.length_append, u16Bytes_length]; omega
  | subAck a =>
    obtain ⟨n, e, hn⟩ := h.subAckSect.asyncWrite (hc _ (by simp [Spec.propSets]))
    refine ⟨_, by simp only [Packet.bodyAsyncWrite, CodesAck.asyncWrite, e]; simp; exact ⟨rfl, rfl⟩, ?_⟩
    intro hs
    replace hs := hsr hs
    have hn := hn (hs _ (by simp [Spec.propSets]))
    simp [Packet.bodyBytes, codesAckBody, hn]; omega
  | unsubscribe s =>
    obtain ⟨n, e, hn⟩ := h.unsubscribeSect.asyncWrite (hc _ (by simp [Spec.propSets]))
    refine ⟨_, by simp only [Packet.bodyAsyncWrite, Unsubscribe.asyncWrite, e, sum_strs, AWr.ok_append_ok, Packet.bodyBytes, List.append_assoc]; rfl, ?_⟩
    intro hs
    replace hs := hsr hs
    have hn := hn (hs _ (by simp [Spec.propSets]))
    simp only [Packet.bodyBytes, hn, List.length_append, u16Bytes_length]; omega
  | unsubAck a =>
    obtain ⟨n, e, hn⟩ := h.unsubAckSect.asyncWrite (hc _ (by simp [Spec.propSets]))
    refine ⟨_, by simp only [Packet.bodyAsyncWrite, CodesAck.asyncWrite, e]; simp; exact ⟨rfl, rfl⟩, ?_⟩
    intro hs
    replace hs := hsr hs
    have hn := hn (hs _ (by simp [Spec.propSets]))
    simp [Packet.bodyBytes, codesAckBody, hn]; omega
  | pingReq => exact ⟨0, rfl, fun _ => rfl⟩
  | pingResp => exact ⟨0, rfl, fun _ => rfl⟩
  | disconnect d =>
    obtain ⟨n, e, hn⟩ := h.disconnectSect.asyncWrite (hc _ (by simp [Spec.propSets]))
    simp only [Packet.bodyAsyncWrite, Disconnect.asyncWrite, e, Packet.bodyBytes]
    split
    · refine ⟨_, rfl, ?_⟩
      intro hs
      replace hs := hsr hs
      have hn := hn (hs _ (by simp [Spec.propSets]))
      simp [hn]; omega
    · exact ⟨0, rfl, fun _ => rfl⟩
  | auth a =>
    obtain ⟨n, e, hn⟩ := h.authSect.asyncWrite (hc _ (by simp [Spec.propSets]))
    refine ⟨_, by simp only [Packet.bodyAsyncWrite, Auth.asyncWrite, e]; rfl, ?_⟩
    intro hs
    replace hs := hsr hs
    have hn := hn (hs _ (by simp [Spec.propSets]))
    simp [Packet.bodyBytes, hn]; omega

end Mqrstt
