import Verif.Spec.Wire
import Verif.Proof.Frame
import Verif.Proof.Codes
import Verif.Proof.PropComplete
/-! # The writers produce the wire format -/

namespace Mqrstt
open Spec

theorem isVbi_vbi {n : Nat} (h : n ≤ 268435455) : IsVbi (vbi n) ∧ vbiValue (vbi n) = n := by
  obtain ⟨init, last, e, -, h1, h2, h3, h4, -⟩ := VarInt.write_spec n h
  have : vbi n = init ++ [last] := by simp only [vbi, e]
  rw [this]
  exact ⟨⟨init, last, rfl, h1, h2, h3⟩, h4⟩

theorem lenBytes_vbi {n : Nat} (h : n ≤ 268435455) : LenBytes n (vbi n) := by
  refine ⟨(isVbi_vbi h).1, (isVbi_vbi h).2, fun other ho hv => ?_⟩
  rw [vbi_length h, ← hv]
  exact isVbi_len_le ho

theorem reasonNumber_eq (r : Reason) : reasonNumber r = r.toU8 := by cases r <;> rfl

instance (t : PacketType) (r : Reason) : Decidable (IsCode t r) := by unfold IsCode; infer_instance

theorem isCode_iff (r : Reason) :
    (IsCode .connAck r ↔ r ∈ Reason.connAck) ∧ (IsCode .pubAck r ↔ r ∈ Reason.pubAck) ∧
    (IsCode .pubRec r ↔ r ∈ Reason.pubRec) ∧ (IsCode .pubRel r ↔ r ∈ Reason.pubRel) ∧
    (IsCode .pubComp r ↔ r ∈ Reason.pubComp) ∧ (IsCode .subAck r ↔ r ∈ Reason.subAck) ∧
    (IsCode .unsubAck r ↔ r ∈ Reason.unsubAck) ∧ (IsCode .disconnect r ↔ r ∈ Reason.disconnect) ∧
    (IsCode .auth r ↔ r ∈ Reason.auth) := by
  refine ⟨?_, ?_, ?_, ?_, ?_, ?_, ?_, ?_, ?_⟩ <;> cases r <;> decide

theorem u16Says (v : UInt16) : U16Says v (u16Bytes v) := by
  have h := v.toNat_lt
  refine ⟨_, _, rfl, ?_⟩
  simp only [UInt8.toNat_ofNat', UInt16.toUInt8, UInt16.toNat_shiftRight]
  simp
  omega

theorem valueBytes_of {k : Kind} {v : k.T} (h : ValueOk k v) : ValueBytes k v (k.bytes v) := by
  have hlen : ∀ b : Bytes, b.length ≤ 65535 → ∃ x y, u16Bytes (UInt16.ofNat b.length) ++ b = x :: y :: b ∧
      b.length = 256 * x.toNat + y.toNat := by
    intro b hb
    obtain ⟨x, y, e, hv⟩ := u16Says (UInt16.ofNat b.length)
    rw [len16 hb] at hv
    exact ⟨x, y, by rw [e]; rfl, hv⟩
  cases k with
  | u8 => rfl
  | u16 => exact u16Says v
  | u32 =>
    have h := v.toNat_lt
    refine ⟨_, _, _, _, rfl, ?_⟩
    simp
    omega
  | str => exact hlen _ h
  | bin => exact hlen _ h
  | var => exact isVbi_vbi h
  | bool => cases v <;> rfl
  | qos => cases v <;> rfl

theorem strSays {s : Str} (h : StrOk s) : StrSays s (strBytes s) := valueBytes_of (k := .str) h
theorem binSays {b : Bytes} (h : b.length ≤ 65535) : BinSays b (binBytes b) := valueBytes_of (k := .bin) h

/-- an item as MQTT sees it -/
def Item.wire : Item → WireItem
  | .single p v => .value p v
  | .subId v => .value .subscriptionIdentifier v
  | .user k v => .user k v

/-- the table of a section holds only what MQTT allows there -/
def TableFits (s : Spec.Section) (es : List Entry) : Prop :=
  ∀ e ∈ es, s ∈ carriers e.wireType ∧ match e with
    | .single p => p ≠ .userProperty ∧ repeatable s p = false
    | .subIdList => s = .publish
    | .user => True

theorem tablesFit : TableFits .connect connectEntries ∧ TableFits .will willEntries ∧ TableFits .connAck connAckEntries ∧
    TableFits .publish publishEntries ∧ TableFits .pubAck ackEntries ∧ TableFits .pubRec ackEntries ∧
    TableFits .pubRel ackEntries ∧ TableFits .pubComp ackEntries ∧ TableFits .subscribe subscribeEntries ∧
    TableFits .unsubscribe unsubscribeEntries ∧ TableFits .unsubAck ackEntries ∧
    TableFits .disconnect disconnectEntries ∧ TableFits .auth authEntries := by
  have key : ∀ (s : Spec.Section) (es : List Entry), (es.all fun e => decide (s ∈ carriers e.wireType) && match e with
      | .single p => decide (p ≠ .userProperty) && !repeatable s p
      | .subIdList => decide (s = .publish)
      | .user => true) = true → TableFits s es := by
    intro s es h e he
    have := List.all_eq_true.1 h e he
    cases e <;> grind
  refine ⟨?_, ?_, ?_, ?_, ?_, ?_, ?_, ?_, ?_, ?_, ?_, ?_, ?_⟩ <;> exact key _ _ (by decide)

variable {s : Spec.Section} {es : List Entry}

theorem Item.wire_type (i : Item) : i.wire.type = i.entry.wireType := by cases i <;> rfl

theorem Item.wire_put (ht : TableFits s es) {i : Item} (hi : i.entry ∈ es) (P : Props) :
    putItem s P i.wire = i.put P := by
  have := ht _ hi
  cases i with
  | single p v =>
    refine putItem_value v ?_
    rintro rfl rfl
    exact absurd this.2.2 (by decide)
  | subId v =>
    have : s = .publish := this.2
    subst this
    rfl
  | user k v => rfl

theorem Item.wire_bytes (ht : TableFits s es) {i : Item} (hi : i.entry ∈ es) (ho : i.Ok) : i.wire.Bytes i.bytes := by
  have := ht _ hi
  cases i with
  | single p v => exact ⟨this.2.1, _, by rw [propertyId_eq]; rfl, valueBytes_of ho⟩
  | subId v => exact ⟨by decide, _, rfl, isVbi_vbi ho⟩
  | user k v => exact ⟨_, _, rfl, strSays ho.1, strSays ho.2⟩

theorem wire_items (ht : TableFits s es) : ∀ {is : List Item}, (∀ i ∈ is, i.entry ∈ es) → (∀ i ∈ is, i.Ok) →
    ItemsBytes (is.map Item.wire) (is.flatMap Item.bytes)
  | [], _, _ => .nil
  | i :: is, h1, h2 => by
    rw [List.map_cons, List.flatMap_cons]
    exact .cons (Item.wire_bytes ht (h1 i (by simp)) (h2 i (by simp)))
      (wire_items ht (fun j hj => h1 j (by simp [hj])) (fun j hj => h2 j (by simp [hj])))

theorem wire_foldl (ht : TableFits s es) : ∀ {is : List Item} (P : Props), (∀ i ∈ is, i.entry ∈ es) →
    (is.map Item.wire).foldl (putItem s) P = is.foldl Item.put P
  | [], _, _ => rfl
  | i :: is, P, h => by
    rw [List.map_cons, List.foldl_cons, List.foldl_cons, Item.wire_put ht (h i (by simp))]
    exact wire_foldl ht _ (fun j hj => h j (by simp [hj]))

theorem wire_fresh (ht : TableFits s es) : ∀ {is : List Item} {P : Props}, (∀ i ∈ is, i.entry ∈ es) →
    Item.AllFresh P is → AllFreshFor s (fun _ => False) P (is.map Item.wire)
  | [], _, _, _ => trivial
  | i :: is, P, h, hf => by
    refine ⟨fun _ hr => ?_, ?_⟩
    · have := ht _ (h i (by simp))
      cases i with
      | single p v => exact hf.1
      | subId v =>
        have e : s = .publish := this.2
        subst e
        cases hr
      | user k v => cases s <;> cases hr
    · rw [Item.wire_put ht (h i (by simp))]
      exact wire_fresh ht (fun j hj => h j (by simp [hj])) hf.2

/-- a written property section says what it should -/
theorem SectOk.says {order : List Entry} {P : Props} (h : SectOk es order P) (ht : TableFits s es) :
    SectionSays s P (P.sect es order) := by
  have hent : ∀ i ∈ P.items order, i.entry ∈ es := fun i hi => h.perm.mem_iff.1 (P.items_entry order i hi)
  have hnd : order.Nodup := h.perm.nodup_iff.2 (Props.nodup_of_wireType h.nodup)
  have hlen : ((P.items order).flatMap Item.bytes).length = P.wireLen es := by
    rw [Props.items_length P h.wf h.auth, Props.wireLen_perm h.perm]
  have hfr : AllFreshFor s (fun _ => False) .empty ((P.items order).map Item.wire) :=
    wire_fresh ht hent (P.items_fresh .empty hnd (fun _ _ => rfl))
  have ho : AtMostOnce s ((P.items order).map Item.wire) := (atMostOnce_of (fun _ h => h.elim) hfr).1
  have hd := decoded_of ho
  rw [wire_foldl ht .empty hent, Props.decode_items h.wf hnd (fun e he => h.perm.mem_iff.2 he)] at hd
  refine ⟨_, _, _, rfl, by rw [hlen]; exact lenBytes_vbi h.fit, wire_items ht hent (P.items_ok h.wf order), ?_, ho, hd, ?_, h.wf.auth⟩
  · intro i hi
    obtain ⟨j, hj, rfl⟩ := List.mem_map.1 hi
    rw [Item.wire_type]
    exact (ht _ (hent j hj)).1
  · intro p hr
    apply Classical.byContradiction
    intro hv
    have := (ht _ (h.wf.listed p hv)).2.2
    rw [hr] at this
    cases this

theorem noProps_empty : NoProps .empty := ⟨fun _ => rfl, rfl, rfl⟩

theorem ack_says {codes : List Reason} {t : PacketType} {a : Ack} (h : AckWF codes a) (hf : a.wireLen ≤ 268435455)
    (ha : AuthDataNonempty a.props) (ht : TableFits s ackEntries) (hc : ∀ r, IsCode t r ↔ r ∈ codes) : AckSays t s a (ackBody a) := by
  refine ⟨_, _, rfl, u16Says _, ?_⟩
  by_cases hn : a.noProps = true
  · have he := ack_noProps_eq h.2 hn
    by_cases hr : a.reason = .success
    · left
      refine ⟨by simp [hr, hn], hr, by rw [he]; exact noProps_empty⟩
    · right; left
      refine ⟨(hc _).2 h.1, by simp [hr, hn, reasonNumber_eq], by rw [he]; exact noProps_empty⟩
  · right; right
    refine ⟨(hc _).2 h.1, a.props.sect ackEntries ackEntries, by simp [hn, reasonNumber_eq], ?_⟩
    exact (ackSect h hf ha).says ht

theorem optStr_says {o : Option Str} (h : ∀ s, o = some s → StrOk s) : OptSays StrSays o (Connect.optStrBytes o) := by
  cases o with
  | none => rfl
  | some s => exact strSays (h s rfl)

theorem options_byte (o : SubOptions) : o.toByte.toNat = subOptionsByte o := by
  obtain ⟨rh, rap, nl, q⟩ := o
  cases rh <;> cases rap <;> cases nl <;> cases q <;> decide

theorem filters_say : ∀ {ts : List (Str × SubOptions)}, (∀ t ∈ ts, StrOk t.1) →
    ListSays FilterSays ts (Subscribe.topicBytes ts)
  | [], _ => .nil
  | (t, o) :: ts, h => by
    refine .cons (b := strBytes t ++ [o.toByte]) ⟨_, _, rfl, strSays (h (t, o) (by simp)), ?_⟩
      (filters_say fun x hx => h x (by simp [hx]))
    exact options_byte o

theorem strs_say : ∀ {ts : List Str}, (∀ t ∈ ts, StrOk t) → ListSays StrSays ts (ts.flatMap strBytes)
  | [], _ => .nil
  | t :: ts, h => by
    rw [List.flatMap_cons]
    exact .cons (strSays (h t (by simp))) (strs_say fun x hx => h x (by simp [hx]))

theorem connect_flags (c : Connect) : c.flags.toU8.toNat = connectFlagsByte c := by
  obtain ⟨cs, w, u, p, k, P, i⟩ := c
  simp only [Connect.flags, connectFlagsByte]
  cases w with
  | none => cases cs <;> cases u <;> cases p <;> simp <;> decide
  | some w =>
    obtain ⟨q, r, P, t, b⟩ := w
    cases cs <;> cases u <;> cases p <;> cases q <;> cases r <;> simp <;> decide

theorem firstByte_says (p : Packet) : p.firstByte.toNat = 16 * typeNumber p.type + flagBits p := by
  cases p with
  | publish p =>
    obtain ⟨d, q, r, t, i, P, b⟩ := p
    simp only [Packet.firstByte, Packet.publishFirstByte, flagBits, Packet.type]
    cases d <;> cases q <;> cases r <;>
      simp only [if_true, if_false, Bool.false_eq_true] <;> decide
  | _ => rfl

theorem BodyOk.says {p : Packet} (h : BodyOk p) (hx : ¬ ForeignSubId p) {ord : List Entry} (ho : ord.Perm publishEntries) :
    BodySays p (p.bodyBytes ord) := by
  obtain ⟨t1, t2, t3, t4, t5, t6, t7, t8, t9, t10, t11, t12, t13⟩ := tablesFit
  cases p with
  | connect c =>
    have wf := h.wf
    refine ⟨_, _, _, _, optWillBody c.lastWill, _, _, ?_, connect_flags c, u16Says _, (connectSect h).says t1,
      strSays wf.2.1, ?_, optStr_says wf.2.2.2.1, optStr_says wf.2.2.2.2⟩
    · simp [Packet.bodyBytes, Connect.protocolName, binBytes, u16Bytes]
    · cases hw : c.lastWill with
      | none => rfl
      | some w =>
        have := wf.2.2.1 w hw
        exact ⟨_, _, _, by simp [optWillBody, willBody], (willSect h hw).says t2, strSays this.2.1, binSays this.2.2⟩
  | connAck c =>
    refine ⟨if c.sessionPresent then 1 else 0, _, ?_, ?_, ((isCode_iff _).1).2 h.wf.1, (connAckSect h).says t3⟩
    · rw [reasonNumber_eq]
      simp only [Packet.bodyBytes, boolBytes]
      cases c.sessionPresent <;> rfl
    · cases c.sessionPresent <;> rfl
  | publish p =>
    refine ⟨_, _, _, by simp [Packet.bodyBytes]; rfl, strSays h.wf.1, ?_, h.wf.2.1, (publishSect h ho).says t4⟩
    cases p.pkid with
    | none => rfl
    | some i => exact u16Says i
  | pubAck a => exact ack_says h.wf h.fit (h.auth _ (by simp [propSets])) t5 fun r => (isCode_iff r).2.1
  | pubRec a => exact ack_says h.wf h.fit (h.auth _ (by simp [propSets])) t6 fun r => (isCode_iff r).2.2.1
  | pubRel a => exact ack_says h.wf h.fit (h.auth _ (by simp [propSets])) t7 fun r => (isCode_iff r).2.2.2.1
  | pubComp a => exact ack_says h.wf h.fit (h.auth _ (by simp [propSets])) t8 fun r => (isCode_iff r).2.2.2.2.1
  | subscribe a =>
    exact ⟨_, _, _, by simp [Packet.bodyBytes], u16Says _, (subscribeSect h).says t9, h.wf.2.1, filters_say h.wf.2.2⟩
  | subAck a =>
    have hs := subAckSect h
    have hn : a.props.val .subscriptionIdentifier = none := Classical.byContradiction hx
    refine ⟨_, a.props.sect subscribeEntries subscribeEntries, ?_, u16Says _, ?_,
      fun r hr => ((isCode_iff r).2.2.2.2.2.1).2 (h.wf.1 r hr)⟩
    · simp [Packet.bodyBytes, codesAckBody, funext reasonNumber_eq]
    · have hw : a.props.wireLen subscribeEntries = a.props.wireLen unsubscribeEntries := by
        simp [Props.wireLen, subscribeEntries, unsubscribeEntries, Props.entryWireLen, hn]
      have hi : a.props.items subscribeEntries = a.props.items unsubscribeEntries := by
        simp [Props.items, subscribeEntries, unsubscribeEntries, Props.entryItems, hn]
      have e : a.props.sect subscribeEntries subscribeEntries = a.props.sect unsubscribeEntries unsubscribeEntries := by
        simp only [Props.sect, hw, hi]
      rw [e]
      refine SectOk.says (es := unsubscribeEntries) ⟨?_, hs.auth, by rw [← hw]; exact hs.fit, by decide, .refl _⟩ ?_
      · refine ⟨?_, ?_, fun _ => by simp [unsubscribeEntries], hs.wf.values, hs.wf.ids, hs.wf.users, hs.wf.auth⟩
        · intro p hp
          have := hs.wf.listed p hp
          simp [subscribeEntries] at this
          subst this
          exact absurd hn hp
        · intro hp
          have := hs.wf.listedIds hp
          simp [subscribeEntries] at this
      · intro e he
        simp [unsubscribeEntries] at he
        subst he
        exact ⟨by decide, trivial⟩
  | unsubscribe a =>
    exact ⟨_, _, _, by simp [Packet.bodyBytes], u16Says _, (unsubscribeSect h).says t10, h.wf.2.1, strs_say h.wf.2.2⟩
  | unsubAck a =>
    refine ⟨_, _, ?_, u16Says _, (unsubAckSect h).says t11, fun r hr => ((isCode_iff r).2.2.2.2.2.2.1).2 (h.wf.1 r hr)⟩
    simp [Packet.bodyBytes, codesAckBody, funext reasonNumber_eq]
  | pingReq => rfl
  | pingResp => rfl
  | disconnect d =>
    have hc := ((isCode_iff d.reason).2.2.2.2.2.2.2.1).2 h.wf.1
    by_cases hl : Disconnect.isLong d = true
    · exact .inr (.inr ⟨hc, _, by simp [Packet.bodyBytes, hl, reasonNumber_eq], (disconnectSect h).says t12⟩)
    · have := disconnect_short h.wf.2 (h.auth _ (by simp [propSets])) (by simpa using hl)
      refine .inl ⟨by simp [Packet.bodyBytes, hl], ?_, ?_⟩
      · rw [this]
      · rw [this]; exact noProps_empty
  | auth a =>
    exact .inr ⟨((isCode_iff _).2.2.2.2.2.2.2.2).2 h.wf.1, _, by simp [Packet.bodyBytes, reasonNumber_eq],
      (authSect h).says t13⟩

theorem BodyOk.frame_says {p : Packet} (h : BodyOk p) (hx : ¬ ForeignSubId p) {ord : List Entry}
    (ho : ord.Perm publishEntries) : PacketSays p (p.frame ord) :=
  ⟨_, _, _, rfl, firstByte_says p, by rw [h.length ho]; exact lenBytes_vbi h.fit, h.says hx ho⟩

end Mqrstt
