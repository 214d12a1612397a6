import Verif.Proof.Wire
import Verif.Props.Sections
/-! # Both readers read every form of a packet that MQTT allows -/

namespace Mqrstt
open Spec Mqrstt.Props

theorem Props.ext' {P Q : Props} (h1 : ∀ p, P.val p = Q.val p) (h2 : P.subIds = Q.subIds) (h3 : P.users = Q.users) :
    P = Q := by
  cases P; cases Q
  simp only [Props.mk.injEq]
  exact ⟨funext h1, h2, h3⟩

theorem noProps_iff {P : Props} (h : NoProps P) : P = .empty := Props.ext' h.1 h.2.1 h.2.2

theorem putItem_repeatable {s : Spec.Section} {p : PropertyType} (hr : repeatable s p = true) {items : List WireItem} {b : Bytes}
    (hb : ItemsBytes items b) {P : Props} (hP : P.val p = none) : (items.foldl (putItem s) P).val p = none := by
  induction hb generalizing P with
  | nil => exact hP
  | @cons i is bs cs hi his ih =>
    refine ih ?_
    cases i with
    | user k v => exact hP
    | value q v =>
      by_cases hq : q = .subscriptionIdentifier ∧ s = .publish
      · obtain ⟨rfl, rfl⟩ := hq
        exact hP
      · rw [putItem_value v (fun e hs => hq ⟨e, hs⟩)]
        have hne : p ≠ q := by
          rintro rfl
          cases p <;> cases s <;> first | exact hi.1 rfl | exact hq ⟨rfl, rfl⟩ | cases hr
        simp [Props.set, hne, hP]

/-- what both readers do with a property section -/
theorem section_reads {s : Spec.Section} {P : Props} {sec : Bytes} (h : SectionSays s P sec)
    (x1 : s = .subAck → P.val .reasonString = none) :
    (∀ rest, Props.asyncRead (streamingEntries s) (sec ++ rest) = .ok ((P, sec.length), rest)) ∧
    ((s = .will → P.val .payloadFormatIndicator = none) → ∀ rest,
      (s ∈ [.pubAck, .pubRec, .pubRel, .pubComp] → rest = []) →
      Props.syncRead (bufferedSpec s) (sec ++ rest) = .ok (P, rest)) ∧
    ∃ len body items, sec = len ++ body ∧ LenBytes body.length len ∧ ItemsBytes items body ∧
      (∀ i ∈ items, s ∈ carriers i.type) ∧ AtMostOnce s items ∧ P = items.foldl (putItem s) .empty ∧
      (s = .subAck → ∀ i ∈ items, i.type ≠ .reasonString) := by
  obtain ⟨len, body, items, rfl, hlen, hi, hc, ho, hd, hr, ha⟩ := h
  have hd' := decoded_of ho
  have hP : items.foldl (putItem s) .empty = P := by
    refine Props.ext' (fun p => ?_) (hd'.subIds.trans hd.subIds.symm) (hd'.users.trans hd.users.symm)
    cases hp : repeatable s p with
    | true => rw [hr p hp, putItem_repeatable hp hi rfl]
    | false =>
      apply Option.ext
      intro v
      rw [hd'.single p hp v, hd.single p hp v]
  have mem_val : ∀ i ∈ items, repeatable s i.type = false → P.val i.type ≠ none := by
    intro i hm hrep
    cases i with
    | user k v => cases s <;> cases hrep
    | value p v =>
      have := (hd.single p hrep v).2 hm
      show P.val p ≠ none
      rw [this]; simp
  have hx : s = .subAck → ∀ i ∈ items, i.type ≠ .reasonString := by
    rintro rfl i hm ht
    exact mem_val i hm (by rw [ht]; rfl) (by rw [ht]; exact x1 rfl)
  have hsec : IsSection items (len ++ body) := ⟨len, body, rfl, hlen.1, hlen.2.1, hi⟩
  have arms := fun i hi => armsOk s (i : WireItem).type (hc i hi) (fun e => hx e.1 i hi e.2)
  refine ⟨fun rest => ?_, fun x2 rest x3 => ?_, ⟨len, body, items, rfl, hlen, hi, hc, ho, hP.symm, hx⟩⟩
  · rw [asyncRead_complete hsec (fun i hi => (arms i hi).2) ho, hP]
  · rw [syncRead_complete hsec (fun i hi => (arms i hi).1) ?_ ho ?_ ?_, hP]
    · intro i hi hm
      cases s <;> simp [bufferedSpec, connectSync, willSync, connAckSync, publishSync, pubAckSync, pubRecSync,
        pubRelSync, pubCompSync, subscribeSync, subAckSync, unsubscribeSync, unsubAckSync, disconnectSync,
        authSync] at hm
      exact mem_val i hi (by rw [hm]; rfl) (by rw [hm]; exact x2 rfl)
    · intro _ ⟨v, hv⟩
      have hn : repeatable s .authenticationData = false := by cases s <;> rfl
      have hn' : repeatable s .authenticationMethod = false := by cases s <;> rfl
      have := ha (by rw [(hd.single _ hn v).2 hv]; simp)
      cases hm : P.val .authenticationMethod with
      | none => exact absurd hm this
      | some m => exact ⟨m, (hd.single _ hn' m).1 hm⟩
    · intro hs
      apply x3
      cases s <;> first | (simp; done) | cases hs

theorem u16_of {v : UInt16} {bs : Bytes} (h : U16Says v bs) : bs = u16Bytes v := (ValueBytes.canonical (by decide) h).2
theorem str_of {v : Str} {bs : Bytes} (h : StrSays v bs) : StrOk v ∧ bs = strBytes v := ValueBytes.canonical (by decide) h
theorem bin_of {v bs : Bytes} (h : BinSays v bs) : v.length ≤ 65535 ∧ bs = binBytes v := ValueBytes.canonical (by decide) h

theorem sec_pos {s : Spec.Section} {P : Props} {sec : Bytes} (h : SectionSays s P sec) : 1 ≤ sec.length := by
  obtain ⟨len, body, items, rfl, hlen, -⟩ := h
  have := VarInt.isVbi_pos hlen.1
  rw [List.length_append]
  omega

/-! ## Acknowledgements -/

/-- the three forms of a publish acknowledgement -/
theorem ack_cases {t : PacketType} {s : Spec.Section} {a : Ack} {body : Bytes} {codes : List Reason}
    (hc : ∀ r, IsCode t r ↔ r ∈ codes) (h : AckSays t s a body) :
    (body = u16Bytes a.id ∧ a = ⟨a.id, .success, .empty⟩) ∨
    (a.reason ∈ codes ∧ body = u16Bytes a.id ++ [a.reason.toU8] ∧ a = ⟨a.id, a.reason, .empty⟩) ∨
    (a.reason ∈ codes ∧ ∃ sec, body = u16Bytes a.id ++ (a.reason.toU8 :: sec) ∧ SectionSays s a.props sec) := by
  obtain ⟨id, tail, rfl, hid, h⟩ := h
  rw [u16_of hid]
  obtain ⟨i, r, P⟩ := a
  simp only [reasonNumber_eq] at h
  rcases h with ⟨rfl, rfl, hn⟩ | ⟨hr, rfl, hn⟩ | ⟨hr, sec, rfl, hs⟩
  · exact .inl ⟨by simp, by rw [noProps_iff hn]⟩
  · exact .inr (.inl ⟨(hc _).1 hr, rfl, by rw [noProps_iff hn]⟩)
  · exact .inr (.inr ⟨(hc _).1 hr, sec, rfl, hs⟩)

section
variable {a : Ack} {body : Bytes}

theorem pubAck_reads (h : AckSays .pubAck .pubAck a body) :
    Ack.readPubAck body.length body = .ok (a, []) ∧
    ∀ rest, ∃ n, Ack.asyncReadPubAck body.length (body ++ rest) = .ok ((a, n), rest) := by
  rcases ack_cases (fun r => (isCode_iff r).2.1) h with ⟨rfl, e⟩ | ⟨hr, rfl, e⟩ | ⟨hr, sec, rfl, hs⟩
  · rw [e]
    simp [Ack.readPubAck, Ack.asyncReadPubAck, Rd.bind_apply]
  · rw [e]
    simp [Ack.readPubAck, Ack.asyncReadPubAck, Rd.bind_apply, Reason.read_toU8 nodup_codes.2.1 hr,
      Reason.asyncRead_toU8 nodup_codes.2.1 hr]
  · obtain ⟨h1, h2, -⟩ := section_reads hs (by simp)
    have h2 := h2 (by simp) [] (fun _ => rfl)
    rw [List.append_nil] at h2
    have := sec_pos hs
    simp only [bufferedSpec, streamingEntries] at h1 h2
    simp [Ack.readPubAck, Ack.asyncReadPubAck, Rd.bind_apply, Reason.read_toU8 nodup_codes.2.1 hr,
      Reason.asyncRead_toU8 nodup_codes.2.1 hr, h1, h2, show ¬ 2 + (sec.length + 1) < 2 by omega,
      show ¬ 2 + (sec.length + 1) = 3 by omega]

theorem recComp_read {t : PacketType} {s : Spec.Section} {codes : List Reason} (hc : ∀ r, IsCode t r ↔ r ∈ codes)
    (hd : (codes.map Reason.toU8).Nodup) (hs : s ∈ [.pubRec, .pubComp]) (h : AckSays t s a body) (hx : body.length ≠ 3) :
    Ack.readRecComp codes (bufferedSpec s) body.length body = .ok (a, []) := by
  rcases ack_cases hc h with ⟨rfl, e⟩ | ⟨hr, rfl, e⟩ | ⟨hr, sec, rfl, hsec⟩
  · rw [e]
    simp [Ack.readRecComp, Rd.bind_apply]
  · simp at hx
  · obtain ⟨-, h2, -⟩ := section_reads hsec (by rintro rfl; simp at hs)
    have h2 := h2 (by rintro rfl; simp at hs) [] (fun _ => rfl)
    rw [List.append_nil] at h2
    have := sec_pos hsec
    simp [Ack.readRecComp, Rd.bind_apply, Reason.read_toU8 hd hr, h2, show ¬ 2 + (sec.length + 1) < 4 by omega]

theorem pubRec_reads (h : AckSays .pubRec .pubRec a body) (hx : body.length ≠ 3) :
    Ack.readPubRec body.length body = .ok (a, []) ∧
    ∀ rest, ∃ n, Ack.asyncReadPubRec body.length (body ++ rest) = .ok ((a, n), rest) := by
  have hsync : Ack.readRecComp Reason.pubRec (bufferedSpec .pubRec) body.length body = .ok (a, []) :=
    recComp_read (fun r => (isCode_iff r).2.2.1) nodup_codes.2.2.1 (by simp) h hx
  refine ⟨hsync, fun rest => ?_⟩
  rcases ack_cases (fun r => (isCode_iff r).2.2.1) h with ⟨rfl, e⟩ | ⟨hr, rfl, e⟩ | ⟨hr, sec, rfl, hs⟩
  · rw [e]
    simp [Ack.asyncReadPubRec, Rd.bind_apply]
  · simp at hx
  · obtain ⟨h1, -⟩ := section_reads hs (by simp)
    simp only [streamingEntries] at h1
    simp [Ack.asyncReadPubRec, Rd.bind_apply, Reason.asyncRead_toU8 nodup_codes.2.2.1 hr, h1]

theorem pubComp_reads (h : AckSays .pubComp .pubComp a body) (hx : body.length ≠ 3) :
    Ack.readPubComp body.length body = .ok (a, []) ∧
    ∀ rest, ∃ n, Ack.asyncReadPubComp body.length (body ++ rest) = .ok ((a, n), rest) := by
  have hsync : Ack.readRecComp Reason.pubComp (bufferedSpec .pubComp) body.length body = .ok (a, []) :=
    recComp_read (fun r => (isCode_iff r).2.2.2.2.1) nodup_codes.2.2.2.2.1 (by simp) h hx
  refine ⟨hsync, fun rest => ?_⟩
  rcases ack_cases (fun r => (isCode_iff r).2.2.2.2.1) h with ⟨rfl, e⟩ | ⟨hr, rfl, e⟩ | ⟨hr, sec, rfl, hs⟩
  · rw [e]
    simp [Ack.asyncReadPubComp, Rd.bind_apply]
  · simp at hx
  · obtain ⟨h1, -⟩ := section_reads hs (by simp)
    have := sec_pos hs
    simp only [streamingEntries] at h1
    simp [Ack.asyncReadPubComp, Rd.bind_apply, Reason.asyncRead_toU8 nodup_codes.2.2.2.2.1 hr, h1,
      show ¬ 2 + (sec.length + 1) < 4 by omega, show 3 + sec.length = 2 + (sec.length + 1) by omega]

theorem pubRel_reads (h : AckSays .pubRel .pubRel a body) :
    Ack.readPubRel body.length body = .ok (a, []) ∧
    ∀ rest, ∃ n, Ack.asyncReadPubRel body.length (body ++ rest) = .ok ((a, n), rest) := by
  rcases ack_cases (fun r => (isCode_iff r).2.2.2.1) h with ⟨rfl, e⟩ | ⟨hr, rfl, e⟩ | ⟨hr, sec, rfl, hs⟩
  · rw [e]
    simp [Ack.readPubRel, Ack.asyncReadPubRel, Rd.bind_apply]
  · rw [e]
    simp [Ack.readPubRel, Ack.asyncReadPubRel, Rd.bind_apply, Reason.read_toU8 nodup_codes.2.2.2.1 hr,
      Reason.asyncRead_toU8 nodup_codes.2.2.2.1 hr]
  · obtain ⟨h1, h2, -⟩ := section_reads hs (by simp)
    have h2 := h2 (by simp) [] (fun _ => rfl)
    rw [List.append_nil] at h2
    have := sec_pos hs
    simp only [bufferedSpec, streamingEntries] at h1 h2
    simp [Ack.readPubRel, Ack.asyncReadPubRel, Rd.bind_apply, Reason.read_toU8 nodup_codes.2.2.2.1 hr,
      Reason.asyncRead_toU8 nodup_codes.2.2.2.1 hr, h1, h2, show ¬ 2 + (sec.length + 1) = 3 by omega]
end

/-! ## SUBACK, UNSUBACK -/

theorem unsubAck_reads {a : CodesAck} {body : Bytes} (h : CodesSay .unsubAck .unsubAck a body) :
    CodesAck.readUnsubAck body.length body = .ok (a, []) ∧
    ∀ rest, ∃ n, CodesAck.asyncReadUnsubAck body.length (body ++ rest) = .ok ((a, n), rest) := by
  obtain ⟨idb, sec, rfl, hid, hs, hcodes⟩ := h
  rw [u16_of hid]
  obtain ⟨id, P, codes⟩ := a
  simp only [funext reasonNumber_eq] at *
  have hcodes : ∀ c ∈ codes, c ∈ Reason.unsubAck := fun r hr => ((isCode_iff r).2.2.2.2.2.2.1).1 (hcodes r hr)
  obtain ⟨h2, h1, plen, props, items, rfl, hpl, hib, hc, ho, hP, -⟩ := section_reads hs (by simp)
  have h1 := h1 (by simp) (codes.map Reason.toU8) (by simp)
  simp only [bufferedSpec, streamingEntries] at h1 h2
  have hw := wireLen_put (s := .unsubAck) (P := .empty) hib (.inl ⟨rfl, fun i hi => by
    have := hc i hi
    revert this
    generalize i.type = t
    cases t <;> simp [carriers]⟩) (fresh_of ho fun _ _ _ => rfl)
  have hw : P.wireLen ackEntries = props.length := by
    rw [hP, hw]; simp [Props.wireLen, ackEntries, Props.entryWireLen, Props.empty]
  have hm := isVbi_minimal hpl.1 (fun l h1 h2 => hpl.2.2 l h1 (h2.trans hpl.2.1))
  rw [hpl.2.1] at hm
  refine ⟨?_, fun rest => ?_⟩
  · have h3 := readCodesEq_ok nodup_codes.2.2.2.2.2.2.1 codes hcodes [] (codes.length + 1)
      (2 + plen.length + props.length) (by omega)
    rw [List.append_nil] at h3
    rw [CodesAck.readUnsubAck, List.append_assoc, Rd.bind_ok (readU16_u16Bytes _ _), Rd.bind_ok h1]
    simp only [hw, ← hm]
    simp [Rd.bind_apply] at h3 ⊢
    rw [show 2 + (plen.length + (props.length + codes.length)) =
      2 + plen.length + props.length + codes.length by omega, h3]
  · have h3 := asyncCodesGe_ok nodup_codes.2.2.2.2.2.2.1 codes hcodes rest (codes.length + rest.length + 1)
      (2 + (plen ++ props).length) (by omega)
    refine ⟨2 + (plen ++ props).length + codes.length, ?_⟩
    rw [CodesAck.asyncReadUnsubAck, List.append_assoc (u16Bytes id ++ (plen ++ props)),
      List.append_assoc (u16Bytes id) (plen ++ props) (_ ++ rest), Rd.bind_ok (aU16_u16Bytes _ _), Rd.bind_ok (h2 _)]
    simp [Rd.bind_apply] at h3 ⊢
    rw [show 2 + (plen.length + (props.length + codes.length)) =
      2 + (plen.length + props.length) + codes.length by omega, h3]

theorem subAck_reads {a : CodesAck} {body : Bytes} (h : CodesSay .subAck .subAck a body)
    (hx : a.props.val .reasonString = none) :
    CodesAck.readSubAck body.length body = .ok (a, []) ∧
    ∀ rest, ∃ n, CodesAck.asyncReadSubAck body.length (body ++ rest) = .ok ((a, n), rest) := by
  obtain ⟨idb, sec, rfl, hid, hs, hcodes⟩ := h
  rw [u16_of hid]
  obtain ⟨id, P, codes⟩ := a
  simp only [funext reasonNumber_eq] at *
  have hcodes : ∀ c ∈ codes, c ∈ Reason.subAck := fun r hr => ((isCode_iff r).2.2.2.2.2.1).1 (hcodes r hr)
  obtain ⟨h2, h1, plen, props, items, rfl, hpl, hib, hc, ho, hP, hnr⟩ := section_reads hs (fun _ => hx)
  have h1 := h1 (by simp) (codes.map Reason.toU8) (by simp)
  simp only [bufferedSpec, streamingEntries] at h1 h2
  have hw := wireLen_put (s := .subAck) (P := .empty) hib (.inr ⟨rfl, fun i hi => by
    have := hc i hi
    have h2 := hnr rfl i hi
    revert this h2
    generalize i.type = t
    cases t <;> simp [carriers]⟩) (fresh_of ho fun _ _ _ => rfl)
  have hw : P.wireLen subscribeEntries = props.length := by
    rw [hP, hw]; simp [Props.wireLen, subscribeEntries, Props.entryWireLen, Props.empty]
  have hm := isVbi_minimal hpl.1 (fun l h1 h2 => hpl.2.2 l h1 (h2.trans hpl.2.1))
  rw [hpl.2.1] at hm
  refine ⟨?_, fun rest => ?_⟩
  · have h3 := readCodesGe_ok nodup_codes.2.2.2.2.2.1 codes hcodes [] (codes.length + 1)
      (2 + plen.length + props.length) (by omega)
    rw [List.append_nil] at h3
    rw [CodesAck.readSubAck, List.append_assoc, Rd.bind_ok (readU16_u16Bytes _ _), Rd.bind_ok h1]
    simp only [hw, ← hm]
    simp [Rd.bind_apply] at h3 ⊢
    rw [show 2 + (plen.length + (props.length + codes.length)) =
      2 + plen.length + props.length + codes.length by omega, h3]
  · have h3 := asyncCodesEq_ok nodup_codes.2.2.2.2.2.1 codes hcodes rest (codes.length + rest.length + 1)
      (2 + (plen ++ props).length) (by omega)
    refine ⟨2 + (plen ++ props).length + codes.length, ?_⟩
    rw [CodesAck.asyncReadSubAck, List.append_assoc (u16Bytes id ++ (plen ++ props)),
      List.append_assoc (u16Bytes id) (plen ++ props) (_ ++ rest), Rd.bind_ok (aU16_u16Bytes _ _), Rd.bind_ok (h2 _)]
    simp [Rd.bind_apply] at h3 ⊢
    rw [show 2 + (plen.length + (props.length + codes.length)) =
      2 + (plen.length + props.length) + codes.length by omega, h3]

/-! ## PUBLISH, CONNACK, DISCONNECT, AUTH -/

theorem publish_reads {p : Publish} {body : Bytes} (h : BodySays (.publish p) body) :
    Publish.read (Packet.headerFlags (.publish p)) body = .ok (p, []) ∧
    ∀ rest, ∃ n, Publish.asyncRead (Packet.headerFlags (.publish p)) body.length (body ++ rest) = .ok ((p, n), rest) := by
  obtain ⟨hdup, hq, hr⟩ := Packet.headerFlags_publish p
  obtain ⟨topic, id, sec, rfl, ht, hid, hp, hs⟩ := h
  obtain ⟨hst, rfl⟩ := str_of ht
  obtain ⟨h1, h2, -⟩ := section_reads hs (by simp)
  have h2 := h2 (by simp) p.payload (by simp)
  simp only [bufferedSpec, streamingEntries] at h1 h2
  simp only [Publish.read, Publish.asyncRead, hdup, hq, hr]
  obtain ⟨dup, qos, ret, t, i, P, pl⟩ := p
  have hx : ∀ m rest, m = List.length pl → aExact m (pl ++ rest) = .ok (pl, rest) :=
    fun m rest hm => by subst hm; exact aExact_append _ _
  cases i with
  | none =>
    simp at hp
    subst hp
    obtain rfl : id = [] := hid
    refine ⟨?_, fun rest => ?_⟩
    · simp [Rd.bind_apply, Rd.lift, readStr_strBytes _ _ hst, h2, Publish.rest]
    · simp [Rd.bind_apply, Rd.lift, asyncReadStr_strBytes _ _ hst, h1]
      rw [if_neg (by omega), hx _ _ (by omega)]
      simp
  | some i =>
    simp at hp
    obtain rfl := u16_of (show U16Says i id from hid)
    refine ⟨?_, fun rest => ?_⟩
    · simp [Rd.bind_apply, Rd.lift, readStr_strBytes _ _ hst, h2, Publish.rest, hp]
    · simp [Rd.bind_apply, Rd.lift, asyncReadStr_strBytes _ _ hst, h1, hp]
      rw [if_neg (by omega), hx _ _ (by omega)]
      simp

theorem connAck_reads {c : ConnAck} {body : Bytes} (h : BodySays (.connAck c) body) :
    ConnAck.read body.length body = .ok (c, []) ∧
    ∀ rest, ∃ n, ConnAck.asyncRead (body ++ rest) = .ok ((c, n), rest) := by
  obtain ⟨flags, sec, rfl, hf, hr, hs⟩ := h
  rw [reasonNumber_eq]
  have hr := ((isCode_iff c.reason).1).1 hr
  obtain ⟨h1, h2, -⟩ := section_reads hs (by simp)
  have h2 := h2 (by simp) [] (by simp)
  rw [List.append_nil] at h2
  simp only [bufferedSpec, streamingEntries] at h1 h2
  have hflags : (flags &&& 1 == 1) = c.sessionPresent := by
    cases hsp : c.sessionPresent with
    | true =>
      rw [hsp] at hf
      have : flags = 1 := UInt8.toNat.inj hf
      subst this; rfl
    | false =>
      rw [hsp] at hf
      have : flags = 0 := UInt8.toNat.inj hf
      subst this; rfl
  simp [Rd.bind_apply, ConnAck.read, ConnAck.readFlags, ConnAck.asyncRead, ConnAck.asyncReadFlags, hflags,
      Reason.read_toU8 nodup_codes.1 hr, Reason.asyncRead_toU8 nodup_codes.1 hr, h1, h2]

theorem disconnect_reads {d : ReasonProps} {body : Bytes} (h : BodySays (.disconnect d) body) (hx : body.length ≠ 1) :
    Disconnect.read body.length body = .ok (d, []) ∧
    ∀ rest, ∃ n, Disconnect.asyncRead body.length (body ++ rest) = .ok ((d, n), rest) := by
  obtain ⟨r, P⟩ := d
  rcases h with ⟨rfl, e, hn⟩ | ⟨hr, rfl, hn⟩ | ⟨hr, sec, rfl, hs⟩
  · simp only at e hn
    rw [e, noProps_iff hn]
    simp [Disconnect.read, Disconnect.asyncRead]
  · simp at hx
  · have hr := ((isCode_iff r).2.2.2.2.2.2.2.1).1 hr
    obtain ⟨h1, h2, -⟩ := section_reads hs (by simp)
    have h2 := h2 (by simp) [] (by simp)
    rw [List.append_nil] at h2
    simp only [bufferedSpec, streamingEntries] at h1 h2
    simp [Disconnect.read, Disconnect.asyncRead, Rd.bind_apply, reasonNumber_eq,
      Reason.read_toU8 nodup_codes.2.2.2.2.2.2.2.1 hr, Reason.asyncRead_toU8 nodup_codes.2.2.2.2.2.2.2.1 hr, h1, h2]

theorem auth_reads {a : ReasonProps} {body : Bytes} (h : BodySays (.auth a) body) (hx : body ≠ []) :
    Auth.read body = .ok (a, []) ∧ ∀ rest, ∃ n, Auth.asyncRead (body ++ rest) = .ok ((a, n), rest) := by
  obtain ⟨r, P⟩ := a
  rcases h with ⟨rfl, e, hn⟩ | ⟨hr, sec, rfl, hs⟩
  · simp at hx
  · have hr := ((isCode_iff r).2.2.2.2.2.2.2.2).1 hr
    obtain ⟨h1, h2, -⟩ := section_reads hs (by simp)
    have h2 := h2 (by simp) [] (by simp)
    rw [List.append_nil] at h2
    simp only [bufferedSpec, streamingEntries] at h1 h2
    simp [Auth.read, Auth.asyncRead, Rd.bind_apply, reasonNumber_eq,
      Reason.read_toU8 nodup_codes.2.2.2.2.2.2.2.2 hr, Reason.asyncRead_toU8 nodup_codes.2.2.2.2.2.2.2.2 hr, h1, h2]

/-! ## SUBSCRIBE, UNSUBSCRIBE -/

theorem filters_of {ts : List (Str × SubOptions)} {b : Bytes} (h : ListSays FilterSays ts b) :
    (∀ t ∈ ts, StrOk t.1) ∧ b = Subscribe.topicBytes ts := by
  induction h with
  | nil => exact ⟨by simp, rfl⟩
  | @cons t ts b bs h _ ih =>
    obtain ⟨topic, o, rfl, ht, ho⟩ := h
    obtain ⟨h1, rfl⟩ := str_of ht
    refine ⟨by simpa using ⟨h1, fun a b => ih.1 (a, b)⟩, ?_⟩
    have : o = t.2.toByte := UInt8.toNat.inj (ho.trans (options_byte t.2).symm)
    rw [ih.2, this]
    rfl

theorem strs_of {ts : List Str} {b : Bytes} (h : ListSays StrSays ts b) :
    (∀ t ∈ ts, StrOk t) ∧ b = ts.flatMap strBytes := by
  induction h with
  | nil => exact ⟨by simp, rfl⟩
  | @cons t ts b bs h _ ih =>
    obtain ⟨h1, rfl⟩ := str_of h
    refine ⟨by simpa using ⟨h1, ih.1⟩, ?_⟩
    rw [ih.2, List.flatMap_cons]

theorem subscribe_reads {s : Subscribe} {body : Bytes} (h : BodySays (.subscribe s) body) :
    Subscribe.read body = .ok (s, []) ∧
    (s.topics.length = 1 → ∀ rest, ∃ n, Subscribe.asyncRead body.length (body ++ rest) = .ok ((s, n), rest)) := by
  obtain ⟨idb, sec, topics, rfl, hid, hs, hne, hts⟩ := h
  rw [u16_of hid]
  obtain ⟨hok, rfl⟩ := filters_of hts
  obtain ⟨h1, h2, -⟩ := section_reads hs (by simp)
  have h2 := h2 (by simp) (Subscribe.topicBytes s.topics) (by simp)
  simp only [bufferedSpec, streamingEntries] at h1 h2
  refine ⟨?_, fun hl rest => ?_⟩
  · have h3 := readTopics_ok s.topics hne hok (List.length (Subscribe.topicBytes s.topics) + 1) (by
      have : ∀ ts : List (Str × SubOptions), ts.length ≤ List.length (Subscribe.topicBytes ts) := by
        intro ts
        rw [topicBytes_length]
        induction ts with
        | nil => simp
        | cons t ts ih =>
          obtain ⟨t, o⟩ := t
          rw [List.map_cons, List.sum_cons, List.length_cons]
          exact Nat.le_trans (Nat.add_le_add ih (Nat.le_add_left 1 (strWireLen t)))
            (Nat.le_of_eq (Nat.add_comm _ _))
      have := this s.topics
      omega)
    simp [Subscribe.read, Rd.bind_apply, h2, h3]
  · obtain ⟨id, P, ts⟩ := s
    match ts, hl with
    | [(t, o)], _ =>
      have ht := hok (t, o) (by simp)
      simp only [Subscribe.asyncRead, List.append_assoc,
        Rd.bind_ok (aU16_u16Bytes _ _), Rd.bind_ok (h1 _), Rd.bufLen_bind, Subscribe.topicBytes,
        Subscribe.asyncTopics]
      simp only [Rd.bind_apply, List.flatMap_cons, List.flatMap_nil, List.append_nil, List.append_assoc,
        asyncReadStr_strBytes _ _ ht, List.singleton_append, SubOptions.asyncRead_toByte, List.length_append]
      rw [if_pos (by simp; omega)]
      simp

theorem unsubscribe_reads {s : Unsubscribe} {body : Bytes} (h : BodySays (.unsubscribe s) body) :
    Unsubscribe.read body = .ok (s, []) ∧
    ∀ rest, ∃ n, Unsubscribe.asyncRead body.length (body ++ rest) = .ok ((s, n), rest) := by
  obtain ⟨idb, sec, topics, rfl, hid, hs, hne, hts⟩ := h
  rw [u16_of hid]
  obtain ⟨hok, rfl⟩ := strs_of hts
  obtain ⟨h1, h2, -⟩ := section_reads hs (by simp)
  have h2 := h2 (by simp) (s.topics.flatMap strBytes) (by simp)
  simp only [bufferedSpec, streamingEntries] at h1 h2
  refine ⟨?_, fun rest => ?_⟩
  · have h3 := readUTopics_ok s.topics hne hok ((s.topics.flatMap strBytes).length + 1)
      (by have := length_le_strs s.topics; omega)
    simp only [Unsubscribe.read, Rd.bind_apply, List.append_assoc, h2, h3, readU16_u16Bytes,
      Rd.bufLen_apply, Rd.pure_apply]
  · have h3 := asyncUTopics_ok s.topics hne hok rest
      ((s.topics.flatMap strBytes ++ rest).length + 1) (2 + sec.length)
      (by have := length_le_strs s.topics; rw [List.length_append]; omega)
    rw [← show (u16Bytes s.id ++ sec ++ s.topics.flatMap strBytes).length =
      2 + sec.length + (s.topics.flatMap strBytes).length by simp; omega] at h3
    exact ⟨_, by simp only [Unsubscribe.asyncRead, Rd.bind_apply, List.append_assoc, h1, aU16_u16Bytes,
      Rd.bufLen_apply, Rd.pure_apply] at h3 ⊢; rw [h3]⟩

/-! ## CONNECT -/

theorem will_reads {w : LastWill} {b : Bytes} (h : WillSays w b) :
    (w.props.val .payloadFormatIndicator = none → ∀ rest, LastWill.read w.qos w.retain (b ++ rest) = .ok (w, rest)) ∧
    ∀ rest, LastWill.asyncRead w.qos w.retain (b ++ rest) = .ok ((w, b.length), rest) := by
  obtain ⟨sec, topic, payload, rfl, hs, ht, hp⟩ := h
  obtain ⟨hst, rfl⟩ := str_of ht
  obtain ⟨hbp, rfl⟩ := bin_of hp
  obtain ⟨h1, h2, -⟩ := section_reads hs (by simp)
  simp only [bufferedSpec, streamingEntries] at h1 h2
  refine ⟨fun hx rest => ?_, fun rest => ?_⟩
  · have h2 := fun r => h2 (fun _ => hx) r (by simp)
    simp only [LastWill.read, List.append_assoc, Rd.bind_ok (h2 _),
      Rd.bind_ok (readStr_strBytes _ _ hst), Rd.bind_ok (readBin_binBytes _ _ hbp)]
    rfl
  · simp only [LastWill.asyncRead, List.append_assoc, Rd.bind_ok (h1 _),
      Rd.bind_ok (asyncReadStr_strBytes _ _ hst), Rd.bind_ok (asyncReadBin_binBytes _ _ hbp)]
    simp; omega

theorem optStr_of {o : Option Str} {b : Bytes} (h : OptSays StrSays o b) :
    (∀ s, o = some s → StrOk s) ∧ b = Connect.optStrBytes o := by
  cases o with
  | none => exact ⟨by simp, h⟩
  | some s =>
    obtain ⟨h1, h2⟩ := str_of (show StrSays s b from h)
    exact ⟨by rintro _ ⟨⟩; exact h1, h2⟩

theorem connect_reads {c : Connect} {body : Bytes} (h : BodySays (.connect c) body) :
    (¬ WillWithFormat (.connect c) → Connect.read body = .ok (c, [])) ∧
    ∀ rest, ∃ n, Connect.asyncRead (body ++ rest) = .ok ((c, n), rest) := by
  obtain ⟨flags, ka, sec, cid, will, user, pass, rfl, hf, hka, hs, hid, hw, hu, hp⟩ := h
  obtain rfl : flags = c.flags.toU8 := UInt8.toNat.inj (hf.trans (connect_flags c).symm)
  obtain rfl := u16_of hka
  obtain ⟨hcid, rfl⟩ := str_of hid
  obtain ⟨hus, rfl⟩ := optStr_of hu
  obtain ⟨hpw, rfl⟩ := optStr_of hp
  obtain ⟨h1, h2, -⟩ := section_reads hs (by simp)
  have h2 := fun r => h2 (by simp) r (by simp)
  simp only [bufferedSpec, streamingEntries] at h1 h2
  have hform : ∀ tail : Bytes, [0, 4, 0x4D, 0x51, 0x54, 0x54, 5, c.flags.toU8] ++ tail =
      binBytes Connect.protocolName ++ (5 :: c.flags.toU8 :: tail) := fun _ => rfl
  refine ⟨fun hx => ?_, fun rest => ?_⟩
  · have hx : ∀ w, c.lastWill = some w → w.props.val .payloadFormatIndicator = none := by
      simpa [WillWithFormat] using hx
    simp only [List.append_assoc]
    rw [hform]
    simp only [Connect.read, Rd.bind_ok (readBin_binBytes _ Connect.protocolName (by decide))]
    rw [if_neg (by simp)]
    simp only [Rd.bind_apply, readProtocolVersion, Rd.bufLen_apply, List.length_cons, Rd.ite_apply,
      getU8_cons]
    simp only [ConnectFlags.read_toU8, getU16_u16Bytes, h2, readStr_strBytes _ _ hcid, Nat.add_one_ne_zero, if_false,
      if_true, Rd.pure_apply, show ¬ ((5 : UInt8) = 3 ∨ (5 : UInt8) = 4) by decide]
    obtain ⟨cs, lw, un, pw, ka, P, cid⟩ := c
    simp only at hw hus hpw ⊢
    have hV := fun v hv r => readStr_strBytes r v (hpw v hv)
    have hU := fun u h r => readStr_strBytes r u (hus u h)
    cases lw with
    | none =>
      obtain rfl : will = [] := hw
      cases un with
      | none =>
        cases pw with
        | none => simp [Connect.flags, Connect.optStrBytes]
        | some v =>
          have := hV v rfl []
          rw [List.append_nil] at this
          simp [Connect.flags, Connect.optStrBytes, this]
      | some u =>
        have hU := hU u rfl
        cases pw with
        | none =>
          have := hU []
          rw [List.append_nil] at this
          simp [Connect.flags, Connect.optStrBytes, this]
        | some v =>
          have := hV v rfl []
          rw [List.append_nil] at this
          simp [Connect.flags, Connect.optStrBytes, this, hU]
    | some w =>
      have hw := (will_reads (show WillSays w will from hw)).1 (hx w rfl)
      cases un with
      | none =>
        cases pw with
        | none =>
          have := hw []
          rw [List.append_nil] at this
          simp [Connect.flags, Connect.optStrBytes, this]
        | some v =>
          have := hV v rfl []
          rw [List.append_nil] at this
          simp [Connect.flags, Connect.optStrBytes, this, hw]
      | some u =>
        have hU := hU u rfl
        cases pw with
        | none =>
          have := hU []
          rw [List.append_nil] at this
          simp [Connect.flags, Connect.optStrBytes, this, hw]
        | some v =>
          have := hV v rfl []
          rw [List.append_nil] at this
          simp [Connect.flags, Connect.optStrBytes, this, hU, hw]
  · simp only [List.append_assoc]
    rw [hform]
    have h6 : ∀ r, aExact 6 (binBytes Connect.protocolName ++ r) =
        .ok (binBytes Connect.protocolName, r) :=
      fun r => aExact_append r (binBytes Connect.protocolName)
    rw [Connect.asyncRead, Rd.bind_ok (h6 _), if_neg (by decide)]
    simp only [Rd.bind_apply, asyncReadProtocolVersion, Rd.ite_apply,
      aU8_cons, ConnectFlags.asyncRead_toU8, aU16_u16Bytes, h1, asyncReadStr_strBytes _ _ hcid, if_true,
      Rd.pure_apply]
    obtain ⟨cs, lw, un, pw, ka, P, cid⟩ := c
    simp only at hw hus hpw ⊢
    have hV := fun v hv r => asyncReadStr_strBytes r v (hpw v hv)
    have hU := fun u h r => asyncReadStr_strBytes r u (hus u h)
    cases lw with
    | none =>
      obtain rfl : will = [] := hw
      cases un with
      | none =>
        cases pw with
        | none => simp [Connect.flags, Connect.optStrBytes]
        | some v => simp [Connect.flags, Connect.optStrBytes, hV v rfl]
      | some u =>
        cases pw with
        | none => simp [Connect.flags, Connect.optStrBytes, hU u rfl]
        | some v => simp [Connect.flags, Connect.optStrBytes, hU u rfl, hV v rfl]
    | some w =>
      have hw := (will_reads (show WillSays w will from hw)).2
      cases un with
      | none =>
        cases pw with
        | none => simp [Connect.flags, Connect.optStrBytes, hw]
        | some v => simp [Connect.flags, Connect.optStrBytes, hV v rfl, hw]
      | some u =>
        cases pw with
        | none => simp [Connect.flags, Connect.optStrBytes, hU u rfl, hw]
        | some v => simp [Connect.flags, Connect.optStrBytes, hU u rfl, hV v rfl, hw]

/-! ## All packets -/

theorem body_reads {p : Packet} {body : Bytes} (h : BodySays p body)
    (x1 : ∀ a, p = .subAck a → a.props.val .reasonString = none)
    (x2 : ∀ a, p = .pubRec a ∨ p = .pubComp a → body.length ≠ 3)
    (x3 : ∀ d, p = .disconnect d → body.length ≠ 1) (x4 : ∀ a, p = .auth a → body ≠ []) :
    (¬ WillWithFormat p → Packet.bodyRead ⟨p.type, p.headerFlags, body.length⟩ body = .ok (p, [])) ∧
    (¬ ManyTopics p → ∀ rest,
      Packet.asyncReadPacket ⟨p.type, p.headerFlags, body.length⟩ (body ++ rest) = .ok (p, rest)) := by
  have lift : ∀ {α : Type} {f : α → Packet} {r : Rd (α × Nat)} {x : α} {b b' : Bytes},
      (∃ n, r b = .ok ((x, n), b')) → Rd.map (fun y => f y.1) r b = .ok (f x, b') := by
    rintro α f r x b b' ⟨n, h⟩
    exact Rd.map_ok h
  cases p with
  | connect c =>
    have := connect_reads h
    exact ⟨fun hx => Rd.map_ok (this.1 hx), fun _ rest => lift (this.2 rest)⟩
  | connAck c => exact ⟨fun _ => Rd.map_ok (connAck_reads h).1, fun _ rest => lift ((connAck_reads h).2 rest)⟩
  | publish p => exact ⟨fun _ => Rd.map_ok (publish_reads h).1, fun _ rest => lift ((publish_reads h).2 rest)⟩
  | pubAck a => exact ⟨fun _ => Rd.map_ok (pubAck_reads h).1, fun _ rest => lift ((pubAck_reads h).2 rest)⟩
  | pubRec a =>
    have := pubRec_reads h (x2 a (.inl rfl))
    exact ⟨fun _ => Rd.map_ok this.1, fun _ rest => lift (this.2 rest)⟩
  | pubRel a => exact ⟨fun _ => Rd.map_ok (pubRel_reads h).1, fun _ rest => lift ((pubRel_reads h).2 rest)⟩
  | pubComp a =>
    have := pubComp_reads h (x2 a (.inr rfl))
    exact ⟨fun _ => Rd.map_ok this.1, fun _ rest => lift (this.2 rest)⟩
  | subscribe s =>
    have := subscribe_reads h
    exact ⟨fun _ => Rd.map_ok this.1, fun hx rest => lift (this.2 (by simpa [ManyTopics] using hx) rest)⟩
  | subAck a =>
    have := subAck_reads h (x1 a rfl)
    exact ⟨fun _ => Rd.map_ok this.1, fun _ rest => lift (this.2 rest)⟩
  | unsubscribe s =>
    exact ⟨fun _ => Rd.map_ok (unsubscribe_reads h).1, fun _ rest => lift ((unsubscribe_reads h).2 rest)⟩
  | unsubAck a => exact ⟨fun _ => Rd.map_ok (unsubAck_reads h).1, fun _ rest => lift ((unsubAck_reads h).2 rest)⟩
  | pingReq => obtain rfl : body = [] := h; exact ⟨fun _ => rfl, fun _ _ => rfl⟩
  | pingResp => obtain rfl : body = [] := h; exact ⟨fun _ => rfl, fun _ _ => rfl⟩
  | disconnect d =>
    have := disconnect_reads h (x3 d rfl)
    exact ⟨fun _ => Rd.map_ok this.1, fun _ rest => lift (this.2 rest)⟩
  | auth a =>
    have := auth_reads h (x4 a rfl)
    exact ⟨fun _ => Rd.map_ok this.1, fun _ rest => lift (this.2 rest)⟩

theorem packet_reads {p : Packet} {bs : Bytes} (h : PacketSays p bs) (x1 : ¬ SubAckReason p) (x2 : ¬ Misread p bs) :
    (¬ WillWithFormat p → ∀ rest, Packet.read (bs ++ rest) = (.ok p, rest)) ∧
    (¬ ManyTopics p → ∀ rest, Packet.asyncRead (bs ++ rest) = .ok (p, rest)) := by
  obtain ⟨first, len, body, rfl, hf, hlen, hb⟩ := h
  obtain rfl : first = p.firstByte := UInt8.toNat.inj (hf.trans (firstByte_says p).symm)
  have hm := isVbi_minimal hlen.1 (fun l h1 h2 => hlen.2.2 l h1 (h2.trans hlen.2.1))
  rw [hlen.2.1] at hm
  have hl : ∀ n, body.length = n → n ≤ 127 → (p.firstByte :: (len ++ body)).length = n + 2 := by
    intro n h1 h2
    rw [h1] at hm
    have : VarInt.len n = 1 := by
      rw [VarInt.len, if_neg (by omega), if_neg (by omega), if_neg (by omega)]
    simp only [List.length_cons, List.length_append, hm, h1, this]
    omega
  obtain ⟨h1, h2⟩ := body_reads hb (by
      rintro a rfl
      exact Classical.byContradiction x1)
    (by
      rintro a ha e
      have := hl 3 e (by omega)
      rcases ha with rfl | rfl <;> exact x2 this)
    (by rintro a rfl e; exact x2 (hl 1 e (by omega)))
    (by rintro a rfl e; exact x2 (hl 0 (by rw [e]; rfl) (by omega)))
  refine ⟨fun hx rest => ?_, fun hx rest => ?_⟩
  · rw [List.cons_append, List.append_assoc]
    exact readFrame_isVbi (Packet.fromFirstByte_firstByte p) hlen.1 hlen.2.1 (h1 hx) rest
  · rw [List.cons_append, List.append_assoc, asyncReadFrame_isVbi (Packet.fromFirstByte_firstByte p) hlen.1 hlen.2.1,
      h2 hx rest]

end Mqrstt
