import Verif.Proof.Layout
import Verif.Proof.Codes
/-! # Both readers read a packet's layout back -/

namespace Mqrstt
open Spec

/-- the fixed header a packet is written with -/
def Packet.header (p : Packet) : FixedHeader := ⟨p.type, p.headerFlags, p.bodyWireLen⟩

theorem nodup_codes :
    (Reason.connAck.map Reason.toU8).Nodup ∧ (Reason.pubAck.map Reason.toU8).Nodup ∧
    (Reason.pubRec.map Reason.toU8).Nodup ∧ (Reason.pubRel.map Reason.toU8).Nodup ∧
    (Reason.pubComp.map Reason.toU8).Nodup ∧ (Reason.subAck.map Reason.toU8).Nodup ∧
    (Reason.unsubAck.map Reason.toU8).Nodup ∧ (Reason.disconnect.map Reason.toU8).Nodup ∧
    (Reason.auth.map Reason.toU8).Nodup := by decide +kernel

@[simp] theorem Rd.map_apply' {α β} (f : α → β) (r : Rd α) (b : Bytes) :
    Rd.map f r b = match r b with | .ok (a, b') => .ok (f a, b') | .error e => .error e := by
  simp only [Rd.map, Rd.bind_apply]; cases r b <;> rfl

theorem Rd.map_ok {α β} {f : α → β} {r : Rd α} {b b' : Bytes} {a : α} (h : r b = .ok (a, b')) :
    Rd.map f r b = .ok (f a, b') := by rw [Rd.map_apply', h]

@[simp] theorem readU16_u16Bytes' (n : UInt16) : readU16 (u16Bytes n) = .ok (n, []) := by
  rw [← List.append_nil (u16Bytes n)]; exact readU16_u16Bytes _ _

theorem len_pos' (n : Nat) : 1 ≤ VarInt.len n := VarInt.len_pos n

/-! ## Acks -/

section
variable {codes : List Reason} {a : Ack}

/-- the three forms of an acknowledgement -/
theorem ack_forms (h : AckWF codes a) :
    (a = ⟨a.id, .success, .empty⟩ ∧ ackBody a = u16Bytes a.id ∧ a.wireLen = 2) ∨
    ((a.reason ≠ .success ∧ a.props = .empty) ∧ a = ⟨a.id, a.reason, .empty⟩ ∧
      ackBody a = u16Bytes a.id ++ [a.reason.toU8] ∧ a.wireLen = 3) ∨
    (a.noProps = false ∧
      ackBody a = u16Bytes a.id ++ (a.reason.toU8 :: a.props.sect ackEntries ackEntries) ∧
      4 ≤ a.wireLen) := by
  obtain ⟨id, r, P⟩ := a
  by_cases hn : Ack.noProps ⟨id, r, P⟩ = true
  · have hP := ack_noProps_eq h.2 hn
    by_cases hr : r = .success
    · left
      subst hr
      simp only at hP
      subst hP
      exact ⟨rfl, by simp [ackBody, hn], by simp [Ack.wireLen, hn]⟩
    · right; left
      simp only at hP
      subst hP
      exact ⟨⟨hr, rfl⟩, rfl, by simp [ackBody, hn, hr], by simp [Ack.wireLen, hn, hr]⟩
  · right; right
    refine ⟨by simpa using hn, by simp [ackBody, hn], ?_⟩
    simp only [Ack.wireLen, hn, and_false, if_false, Bool.false_eq_true]
    have := len_pos' (P.wireLen ackEntries)
    omega

theorem readPubAck_ok (h : AckWF Reason.pubAck a) (hf : a.wireLen ≤ 268435455)
    (ha : AuthDataNonempty a.props) : Ack.readPubAck a.wireLen (ackBody a) = .ok (a, []) := by
  have hS := ackSect h hf ha
  rcases ack_forms h with ⟨e, hb, hl⟩ | ⟨_, e, hb, hl⟩ | ⟨_, hb, hl⟩
  · rw [hl, hb]
    simp [Ack.readPubAck, Rd.bind_apply]
    exact e.symm
  · rw [hl, hb]
    simp [Ack.readPubAck, Rd.bind_apply, Reason.read_toU8 nodup_codes.2.1 h.1]
    exact e.symm
  · rw [hb]
    have := hS.syncRead (sp := pubAckSync) rfl (by simp [pubAckSync]) [] (.inr rfl)
    rw [List.append_nil] at this
    simp [Ack.readPubAck, Rd.bind_apply, Reason.read_toU8 nodup_codes.2.1 h.1, this,
      show ¬ a.wireLen < 2 by omega, show ¬ a.wireLen = 2 by omega, show ¬ a.wireLen = 3 by omega]

theorem asyncReadPubAck_ok (h : AckWF Reason.pubAck a) (hf : a.wireLen ≤ 268435455)
    (ha : AuthDataNonempty a.props) (rest : Bytes) :
    Ack.asyncReadPubAck a.wireLen (ackBody a ++ rest) = .ok ((a, a.wireLen), rest) := by
  have hS := ackSect h hf ha
  have hlen := ackBody_length h hf ha
  rcases ack_forms h with ⟨e, hb, hl⟩ | ⟨_, e, hb, hl⟩ | ⟨_, hb, hl⟩
  · rw [hl, hb]
    simp [Ack.asyncReadPubAck, Rd.bind_apply]
    exact e.symm
  · rw [hl, hb]
    simp [Ack.asyncReadPubAck, Rd.bind_apply, Reason.asyncRead_toU8 nodup_codes.2.1 h.1]
    exact e.symm
  · rw [hb] at hlen ⊢
    simp at hlen
    simp [Ack.asyncReadPubAck, Rd.bind_apply, Reason.asyncRead_toU8 nodup_codes.2.1 h.1,
      hS.asyncRead rest, show ¬ a.wireLen < 2 by omega, show ¬ a.wireLen = 2 by omega,
      show ¬ a.wireLen = 3 by omega]
    omega

theorem readRecComp_ok {sp : Props.SyncSpec} (h : AckWF codes a) (hf : a.wireLen ≤ 268435455)
    (ha : AuthDataNonempty a.props) (hd : (codes.map Reason.toU8).Nodup)
    (hsp : sp.entries = ackEntries) (hinv : sp.inverted = [])
    (hr : ¬ (a.reason ≠ .success ∧ a.props = .empty)) :
    Ack.readRecComp codes sp a.wireLen (ackBody a) = .ok (a, []) := by
  have hS := ackSect h hf ha
  rcases ack_forms h with ⟨e, hb, hl⟩ | ⟨h', _⟩ | ⟨_, hb, hl⟩
  · rw [hl, hb]
    simp [Ack.readRecComp, Rd.bind_apply]
    exact e.symm
  · exact absurd h' hr
  · rw [hb]
    have := hS.syncRead (sp := sp) hsp (by simp [hinv]) [] (.inr rfl)
    rw [List.append_nil] at this
    simp [Ack.readRecComp, Rd.bind_apply, Reason.read_toU8 hd h.1, this,
      show ¬ a.wireLen < 4 by omega, show ¬ a.wireLen = 2 by omega]

theorem asyncReadPubRec_ok (h : AckWF Reason.pubRec a) (hf : a.wireLen ≤ 268435455)
    (ha : AuthDataNonempty a.props) (hr : ¬ (a.reason ≠ .success ∧ a.props = .empty))
    (rest : Bytes) :
    Ack.asyncReadPubRec a.wireLen (ackBody a ++ rest) = .ok ((a, a.wireLen), rest) := by
  have hS := ackSect h hf ha
  have hlen := ackBody_length h hf ha
  rcases ack_forms h with ⟨e, hb, hl⟩ | ⟨h', _⟩ | ⟨_, hb, hl⟩
  · rw [hl, hb]
    simp [Ack.asyncReadPubRec, Rd.bind_apply]
    exact e.symm
  · exact absurd h' hr
  · rw [hb] at hlen ⊢
    simp at hlen
    simp [Ack.asyncReadPubRec, Rd.bind_apply, Reason.asyncRead_toU8 nodup_codes.2.2.1 h.1,
      hS.asyncRead rest, show ¬ a.wireLen = 2 by omega]
    omega

theorem asyncReadPubComp_ok (h : AckWF Reason.pubComp a) (hf : a.wireLen ≤ 268435455)
    (ha : AuthDataNonempty a.props) (hr : ¬ (a.reason ≠ .success ∧ a.props = .empty))
    (rest : Bytes) :
    Ack.asyncReadPubComp a.wireLen (ackBody a ++ rest) = .ok ((a, a.wireLen), rest) := by
  have hS := ackSect h hf ha
  have hlen := ackBody_length h hf ha
  rcases ack_forms h with ⟨e, hb, hl⟩ | ⟨h', _⟩ | ⟨_, hb, hl⟩
  · rw [hl, hb]
    simp [Ack.asyncReadPubComp, Rd.bind_apply]
    exact e.symm
  · exact absurd h' hr
  · rw [hb] at hlen ⊢
    simp at hlen
    simp [Ack.asyncReadPubComp, Rd.bind_apply, Reason.asyncRead_toU8 nodup_codes.2.2.2.2.1 h.1,
      hS.asyncRead rest, show ¬ a.wireLen = 2 by omega, show ¬ a.wireLen < 4 by omega]
    rw [if_pos (by omega)]
    simp; omega

theorem readPubRel_ok (h : AckWF Reason.pubRel a) (hf : a.wireLen ≤ 268435455)
    (ha : AuthDataNonempty a.props) : Ack.readPubRel a.wireLen (ackBody a) = .ok (a, []) := by
  have hS := ackSect h hf ha
  rcases ack_forms h with ⟨e, hb, hl⟩ | ⟨_, e, hb, hl⟩ | ⟨_, hb, hl⟩
  · rw [hl, hb]
    simp [Ack.readPubRel, Rd.bind_apply]
    exact e.symm
  · rw [hl, hb]
    simp [Ack.readPubRel, Rd.bind_apply, Reason.read_toU8 nodup_codes.2.2.2.1 h.1]
    exact e.symm
  · rw [hb]
    have := hS.syncRead (sp := pubRelSync) rfl (by simp [pubRelSync]) [] (.inr rfl)
    rw [List.append_nil] at this
    simp [Ack.readPubRel, Rd.bind_apply, Reason.read_toU8 nodup_codes.2.2.2.1 h.1, this,
      show ¬ a.wireLen = 2 by omega, show ¬ a.wireLen = 3 by omega]

theorem asyncReadPubRel_ok (h : AckWF Reason.pubRel a) (hf : a.wireLen ≤ 268435455)
    (ha : AuthDataNonempty a.props) (rest : Bytes) :
    Ack.asyncReadPubRel a.wireLen (ackBody a ++ rest) = .ok ((a, a.wireLen), rest) := by
  have hS := ackSect h hf ha
  have hlen := ackBody_length h hf ha
  rcases ack_forms h with ⟨e, hb, hl⟩ | ⟨_, e, hb, hl⟩ | ⟨_, hb, hl⟩
  · rw [hl, hb]
    simp [Ack.asyncReadPubRel, Rd.bind_apply]
    exact e.symm
  · rw [hl, hb]
    simp [Ack.asyncReadPubRel, Rd.bind_apply, Reason.asyncRead_toU8 nodup_codes.2.2.2.1 h.1]
    exact e.symm
  · rw [hb] at hlen ⊢
    simp at hlen
    simp [Ack.asyncReadPubRel, Rd.bind_apply, Reason.asyncRead_toU8 nodup_codes.2.2.2.1 h.1,
      hS.asyncRead rest, show ¬ a.wireLen = 2 by omega, show ¬ a.wireLen = 3 by omega]
    omega
end

/-! ## SUBACK, UNSUBACK -/

theorem readCodesGe_ok {codes : List Reason} (hd : (codes.map Reason.toU8).Nodup)
    (rs : List Reason) (h : ∀ r ∈ rs, r ∈ codes) (rest : Bytes) (fuel n : Nat)
    (hf : rs.length < fuel) :
    CodesAck.readCodesGe codes (n + rs.length) fuel n (rs.map Reason.toU8 ++ rest) =
      .ok (rs, rest) := by
  induction rs generalizing fuel n with
  | nil =>
    cases fuel with
    | zero => simp at hf
    | succ f => simp [CodesAck.readCodesGe]
  | cons r rs ih =>
    cases fuel with
    | zero => simp at hf
    | succ f =>
      have hi := ih (fun r hr => h r (by simp [hr])) f (n + 1) (by simp at hf; omega)
      rw [show n + 1 + rs.length = n + (r :: rs).length by simp; omega] at hi
      simp only [CodesAck.readCodesGe, Rd.ite_apply]
      rw [if_neg (by simp)]
      simp [Rd.bind_apply, Reason.read_toU8 hd (h r (by simp)), ] at hi ⊢
      rw [hi]

theorem readCodesEq_ok {codes : List Reason} (hd : (codes.map Reason.toU8).Nodup)
    (rs : List Reason) (h : ∀ r ∈ rs, r ∈ codes) (rest : Bytes) (fuel n : Nat)
    (hf : rs.length < fuel) :
    CodesAck.readCodesEq codes (n + rs.length) fuel n (rs.map Reason.toU8 ++ rest) =
      .ok (rs, rest) := by
  induction rs generalizing fuel n with
  | nil =>
    cases fuel with
    | zero => simp at hf
    | succ f => simp [CodesAck.readCodesEq]
  | cons r rs ih =>
    cases fuel with
    | zero => simp at hf
    | succ f =>
      have hi := ih (fun r hr => h r (by simp [hr])) f (n + 1) (by simp at hf; omega)
      rw [show n + 1 + rs.length = n + (r :: rs).length by simp; omega] at hi
      simp only [CodesAck.readCodesEq, Rd.ite_apply]
      rw [if_neg (by simp)]
      simp [Rd.bind_apply, Reason.read_toU8 hd (h r (by simp)), ] at hi ⊢
      rw [hi]

theorem asyncCodesEq_ok {codes : List Reason} (hd : (codes.map Reason.toU8).Nodup)
    (rs : List Reason) (h : ∀ r ∈ rs, r ∈ codes) (rest : Bytes) (fuel n : Nat)
    (hf : rs.length < fuel) :
    CodesAck.asyncCodesEq codes (n + rs.length) fuel n (rs.map Reason.toU8 ++ rest) =
      .ok ((rs, n + rs.length), rest) := by
  induction rs generalizing fuel n with
  | nil =>
    cases fuel with
    | zero => simp at hf
    | succ f => simp [CodesAck.asyncCodesEq]
  | cons r rs ih =>
    cases fuel with
    | zero => simp at hf
    | succ f =>
      have hi := ih (fun r hr => h r (by simp [hr])) f (n + 1) (by simp at hf; omega)
      rw [show n + 1 + rs.length = n + (r :: rs).length by simp; omega] at hi
      simp only [CodesAck.asyncCodesEq, Rd.ite_apply]
      rw [if_neg (by simp)]
      simp [Rd.bind_apply, Reason.asyncRead_toU8 hd (h r (by simp)), ] at hi ⊢
      rw [hi]

theorem asyncCodesGe_ok {codes : List Reason} (hd : (codes.map Reason.toU8).Nodup)
    (rs : List Reason) (h : ∀ r ∈ rs, r ∈ codes) (rest : Bytes) (fuel n : Nat)
    (hf : rs.length < fuel) :
    CodesAck.asyncCodesGe codes (n + rs.length) fuel n (rs.map Reason.toU8 ++ rest) =
      .ok ((rs, n + rs.length), rest) := by
  induction rs generalizing fuel n with
  | nil =>
    cases fuel with
    | zero => simp at hf
    | succ f => simp [CodesAck.asyncCodesGe]
  | cons r rs ih =>
    cases fuel with
    | zero => simp at hf
    | succ f =>
      have hi := ih (fun r hr => h r (by simp [hr])) f (n + 1) (by simp at hf; omega)
      rw [show n + 1 + rs.length = n + (r :: rs).length by simp; omega] at hi
      simp only [CodesAck.asyncCodesGe, Rd.ite_apply]
      rw [if_neg (by simp)]
      simp [Rd.bind_apply, Reason.asyncRead_toU8 hd (h r (by simp)), ] at hi ⊢
      rw [hi]

section
variable {a : CodesAck}

theorem readSubAck_ok (h : CodesAckWF Reason.subAck subscribeEntries a)
    (hS : SectOk subscribeEntries subscribeEntries a.props) :
    CodesAck.readSubAck (a.wireLen subscribeEntries) (codesAckBody subscribeEntries a) =
      .ok (a, []) := by
  have h1 := hS.syncRead (sp := subAckSync) rfl (by simp [subAckSync]) (a.codes.map Reason.toU8)
    (.inl rfl)
  have h2 := readCodesGe_ok nodup_codes.2.2.2.2.2.1 a.codes h.1 [] (a.codes.length + 1)
    (2 + VarInt.len (a.props.wireLen subscribeEntries) + a.props.wireLen subscribeEntries) (by omega)
  rw [List.append_nil] at h2
  simp [CodesAck.readSubAck, Rd.bind_apply, codesAckBody, CodesAck.wireLen, h1, h2]

theorem readUnsubAck_ok (h : CodesAckWF Reason.unsubAck ackEntries a)
    (hS : SectOk ackEntries ackEntries a.props) :
    CodesAck.readUnsubAck (a.wireLen ackEntries) (codesAckBody ackEntries a) = .ok (a, []) := by
  have h1 := hS.syncRead (sp := unsubAckSync) rfl (by simp [unsubAckSync])
    (a.codes.map Reason.toU8) (.inl rfl)
  have h2 := readCodesEq_ok nodup_codes.2.2.2.2.2.2.1 a.codes h.1 [] (a.codes.length + 1)
    (2 + VarInt.len (a.props.wireLen ackEntries) + a.props.wireLen ackEntries) (by omega)
  rw [List.append_nil] at h2
  simp [CodesAck.readUnsubAck, Rd.bind_apply, codesAckBody, CodesAck.wireLen, h1, h2]

theorem asyncReadSubAck_ok (h : CodesAckWF Reason.subAck subscribeEntries a)
    (hS : SectOk subscribeEntries subscribeEntries a.props) (rest : Bytes) :
    CodesAck.asyncReadSubAck (a.wireLen subscribeEntries)
      (codesAckBody subscribeEntries a ++ rest) =
      .ok ((a, a.wireLen subscribeEntries), rest) := by
  have h1 := hS.asyncRead (a.codes.map Reason.toU8 ++ rest)
  have h2 := asyncCodesEq_ok nodup_codes.2.2.2.2.2.1 a.codes h.1 rest
    (a.codes.length + rest.length + 1)
    (2 + (VarInt.len (a.props.wireLen subscribeEntries) + a.props.wireLen subscribeEntries)) (by omega)
  simp [CodesAck.asyncReadSubAck, Rd.bind_apply, codesAckBody, CodesAck.wireLen, h1, hS.length]
  rw [← Nat.add_assoc 2] at h2 ⊢
  rw [h2]

theorem asyncReadUnsubAck_ok (h : CodesAckWF Reason.unsubAck ackEntries a)
    (hS : SectOk ackEntries ackEntries a.props) (rest : Bytes) :
    CodesAck.asyncReadUnsubAck (a.wireLen ackEntries)
      (codesAckBody ackEntries a ++ rest) =
      .ok ((a, a.wireLen ackEntries), rest) := by
  have h1 := hS.asyncRead (a.codes.map Reason.toU8 ++ rest)
  have h2 := asyncCodesGe_ok nodup_codes.2.2.2.2.2.2.1 a.codes h.1 rest
    (a.codes.length + rest.length + 1)
    (2 + (VarInt.len (a.props.wireLen ackEntries) + a.props.wireLen ackEntries)) (by omega)
  simp [CodesAck.asyncReadUnsubAck, Rd.bind_apply, codesAckBody, CodesAck.wireLen, h1, hS.length]
  rw [← Nat.add_assoc 2] at h2 ⊢
  rw [h2]
end

/-! ## PUBLISH -/

theorem readPublish_ok {p : Publish} (h : BodyOk (.publish p)) {ord : List Entry}
    (ho : ord.Perm publishEntries) :
    Publish.read (Packet.headerFlags (.publish p)) (Packet.bodyBytes ord (.publish p)) =
      .ok (p, []) := by
  obtain ⟨hdup, hq, hr⟩ := Packet.headerFlags_publish p
  have h1 := (h.publishSect ho).syncRead (sp := publishSync) rfl (by simp [publishSync]) p.payload
    (.inl rfl)
  have hp := h.wf.2.1
  simp only [Packet.bodyBytes, Publish.read, hdup, hq, hr]
  obtain ⟨dup, qos, ret, t, i, P, pl⟩ := p
  cases i with
  | none =>
    simp at hp
    subst hp
    simp [Rd.bind_apply, Publish.pkidBytes, Rd.lift, readStr_strBytes _ _ h.wf.1, h1, Publish.rest]
  | some i =>
    simp at hp
    simp [Rd.bind_apply, Publish.pkidBytes, Rd.lift, readStr_strBytes _ _ h.wf.1, h1, Publish.rest, hp]

theorem asyncReadPublish_ok {p : Publish} (h : BodyOk (.publish p)) {ord : List Entry}
    (ho : ord.Perm publishEntries) (rest : Bytes) :
    Publish.asyncRead (Packet.headerFlags (.publish p)) p.wireLen
      (Packet.bodyBytes ord (.publish p) ++ rest) = .ok ((p, p.wireLen), rest) := by
  obtain ⟨hdup, hq, hr⟩ := Packet.headerFlags_publish p
  have h1 := (h.publishSect ho).asyncRead (p.payload ++ rest)
  have hl := h.length ho
  have hp := h.wf.2.1
  simp only [Packet.bodyWireLen] at hl
  simp only [Packet.bodyBytes] at hl ⊢
  simp only [Publish.asyncRead, hdup, hq, hr]
  obtain ⟨dup, qos, ret, t, i, P, pl⟩ := p
  simp only at hl ⊢
  cases i with
  | none =>
    simp at hp
    subst hp
    simp [Rd.bind_apply, Publish.pkidBytes, Rd.lift, asyncReadStr_strBytes _ _ h.wf.1, h1] at hl ⊢
    rw [if_neg (by omega)]
    rw [show ∀ m, m = List.length pl → aExact m (pl ++ rest) = .ok (pl, rest) from
      fun m hm => by subst hm; exact aExact_append _ _]
    · simp; omega
    · omega
  | some i =>
    simp at hp
    simp [Rd.bind_apply, Publish.pkidBytes, Rd.lift, asyncReadStr_strBytes _ _ h.wf.1, h1, hp] at hl ⊢
    rw [if_neg (by omega)]
    rw [show ∀ m, m = List.length pl → aExact m (pl ++ rest) = .ok (pl, rest) from
      fun m hm => by subst hm; exact aExact_append _ _]
    · simp; omega
    · omega

/-! ## SUBSCRIBE, UNSUBSCRIBE -/

theorem readTopics_ok (ts : List (Str × SubOptions)) (hne : ts ≠ []) (h : ∀ t ∈ ts, StrOk t.1)
    (fuel : Nat) (hf : ts.length ≤ fuel) :
    Subscribe.readTopics fuel (Subscribe.topicBytes ts) = .ok (ts, []) := by
  induction ts generalizing fuel with
  | nil => exact absurd rfl hne
  | cons t ts ih =>
    obtain ⟨t, o⟩ := t
    cases fuel with
    | zero => simp at hf
    | succ f =>
      have hb : Subscribe.topicBytes ((t, o) :: ts) =
          strBytes t ++ (o.toByte :: Subscribe.topicBytes ts) := by
        simp [Subscribe.topicBytes]
      rw [hb, Subscribe.readTopics, Rd.bind_ok (readStr_strBytes _ _ (h (t, o) (by simp))),
        Rd.bind_ok (SubOptions.read_toByte _ _), Rd.bufLen_bind]
      cases ts with
      | nil => simp [Subscribe.topicBytes]
      | cons t' ts =>
        have := ih (by simp) (fun t ht => h t (by simp at ht ⊢; simp [ht])) f (by simp at hf ⊢; omega)
        rw [if_neg (by simp [Subscribe.topicBytes]), Rd.bind_ok this]
        rfl

theorem readSubscribe_ok {s : Subscribe} (h : BodyOk (.subscribe s)) (ord : List Entry) :
    Subscribe.read (Packet.bodyBytes ord (.subscribe s)) = .ok (s, []) := by
  have h1 := h.subscribeSect.syncRead (sp := subscribeSync) rfl (by simp [subscribeSync])
    (Subscribe.topicBytes s.topics) (.inl rfl)
  have h2 := readTopics_ok s.topics h.wf.2.1 h.wf.2.2 (List.length (Subscribe.topicBytes s.topics) + 1) (by
    have : ∀ ts : List (Str × SubOptions), ts.length ≤ List.length (Subscribe.topicBytes ts) := by
      intro ts
      rw [topicBytes_length]
      induction ts with
      | nil => simp
      | cons t ts ih =>
        obtain ⟨t, o⟩ := t
        rw [List.map_cons, List.sum_cons, List.length_cons]
        exact Nat.le_trans (Nat.add_le_add ih (Nat.le_add_left 1 (strWireLen t)))
          (Nat.le_of_eq (Nat.add_comm _ _))
    have := this s.topics
    omega)
  simp [Packet.bodyBytes, Subscribe.read, Rd.bind_apply, h1, h2]

theorem readUTopics_ok (ts : List Str) (hne : ts ≠ []) (h : ∀ t ∈ ts, StrOk t)
    (fuel : Nat) (hf : ts.length ≤ fuel) :
    Unsubscribe.readTopics fuel (ts.flatMap strBytes) = .ok (ts, []) := by
  induction ts generalizing fuel with
  | nil => exact absurd rfl hne
  | cons t ts ih =>
    cases fuel with
    | zero => simp at hf
    | succ f =>
      rw [List.flatMap_cons, Unsubscribe.readTopics, Rd.bind_ok (readStr_strBytes _ _ (h t (by simp))),
        Rd.bufLen_bind]
      cases ts with
      | nil => simp
      | cons t' ts =>
        have := ih (by simp) (fun t ht => h t (by simp at ht ⊢; simp [ht])) f (by simp at hf ⊢; omega)
        rw [if_neg (by simp), Rd.bind_ok this]
        rfl

theorem length_le_strs (ts : List Str) : ts.length ≤ (ts.flatMap strBytes).length := by
  rw [strsBytes_length]
  induction ts with
  | nil => simp
  | cons t ts ih => simp [strWireLen] at ih ⊢; omega

theorem readUnsubscribe_ok {s : Unsubscribe} (h : BodyOk (.unsubscribe s)) (ord : List Entry) :
    Unsubscribe.read (Packet.bodyBytes ord (.unsubscribe s)) = .ok (s, []) := by
  have h1 := h.unsubscribeSect.syncRead (sp := unsubscribeSync) rfl (by simp [unsubscribeSync])
    (s.topics.flatMap strBytes) (.inl rfl)
  have h2 := readUTopics_ok s.topics h.wf.2.1 h.wf.2.2 ((s.topics.flatMap strBytes).length + 1)
    (by have := length_le_strs s.topics; omega)
  simp only [Packet.bodyBytes, Unsubscribe.read, Rd.bind_apply, h1, h2, readU16_u16Bytes,
    Rd.bufLen_apply, Rd.pure_apply]

theorem asyncUTopics_ok (ts : List Str) (hne : ts ≠ []) (h : ∀ t ∈ ts, StrOk t) (rest : Bytes)
    (fuel n : Nat) (hf : ts.length ≤ fuel) :
    Unsubscribe.asyncTopics (n + (ts.flatMap strBytes).length) fuel n (ts.flatMap strBytes ++ rest) =
      .ok ((ts, n + (ts.flatMap strBytes).length), rest) := by
  induction ts generalizing fuel n with
  | nil => exact absurd rfl hne
  | cons t ts ih =>
    cases fuel with
    | zero => simp at hf
    | succ f =>
      rw [List.flatMap_cons, List.append_assoc, Unsubscribe.asyncTopics,
        Rd.bind_ok (asyncReadStr_strBytes _ _ (h t (by simp)))]
      simp only
      cases ts with
      | nil => simp
      | cons t' ts =>
        have := ih (by simp) (fun t ht => h t (by simp at ht ⊢; simp [ht])) f
          (n + (t.bytes.length + 2)) (by simp at hf ⊢; omega)
        rw [if_neg (by simp; omega)]
        rw [show n + (t.bytes.length + 2) + (List.flatMap strBytes (t' :: ts)).length =
          n + (strBytes t ++ List.flatMap strBytes (t' :: ts)).length by
            rw [List.length_append, strBytes_length]; omega] at this
        rw [Rd.bind_ok this]
        rfl

theorem asyncReadUnsubscribe_ok {s : Unsubscribe} (h : BodyOk (.unsubscribe s)) (ord : List Entry)
    (rest : Bytes) :
    Unsubscribe.asyncRead s.wireLen (Packet.bodyBytes ord (.unsubscribe s) ++ rest) =
      .ok ((s, s.wireLen), rest) := by
  have h1 := h.unsubscribeSect.asyncRead (s.topics.flatMap strBytes ++ rest)
  have hl := h.unsubscribeSect.length
  have h2 := asyncUTopics_ok s.topics h.wf.2.1 h.wf.2.2 rest
    ((s.topics.flatMap strBytes ++ rest).length + 1)
    (2 + List.length (s.props.sect unsubscribeEntries unsubscribeEntries))
    (by have := length_le_strs s.topics; rw [List.length_append]; omega)
  have hw : s.wireLen = 2 + List.length (s.props.sect unsubscribeEntries unsubscribeEntries) +
      (s.topics.flatMap strBytes).length := by
    rw [hl, strsBytes_length, Unsubscribe.wireLen]; omega
  simp only [Packet.bodyBytes, Unsubscribe.asyncRead, Rd.bind_apply, List.append_assoc, h1, h2, hw,
    aU16_u16Bytes, Rd.bufLen_apply, Rd.pure_apply]

theorem asyncReadSubscribe_ok {s : Subscribe} (h : BodyOk (.subscribe s)) (ord : List Entry)
    (h1 : s.topics.length = 1) (rest : Bytes) :
    Subscribe.asyncRead s.wireLen (Packet.bodyBytes ord (.subscribe s) ++ rest) =
      .ok ((s, s.wireLen), rest) := by
  have hl := h.subscribeSect.length
  have hs := h.wf.2.2
  have hr := fun r => h.subscribeSect.asyncRead r
  obtain ⟨id, P, ts⟩ := s
  match ts, h1 with
  | [(t, o)], _ =>
    have ht := hs (t, o) (by simp)
    simp only [Packet.bodyBytes, Subscribe.asyncRead, List.append_assoc,
      Rd.bind_ok (aU16_u16Bytes _ _), Rd.bind_ok (hr _), Rd.bufLen_bind, Subscribe.topicBytes,
      Subscribe.asyncTopics]
    simp only [Rd.bind_apply, List.flatMap_cons, List.flatMap_nil, List.append_nil, List.append_assoc,
      asyncReadStr_strBytes _ _ ht, List.singleton_append, SubOptions.asyncRead_toByte, List.length_append]
    simp at hl
    rw [if_pos (by simp [Subscribe.wireLen, strWireLen]; omega)]
    simp [Subscribe.wireLen, strWireLen]; omega

/-! ## CONNECT -/

theorem readWill_ok {w : LastWill} (h : WillWF w) (hS : SectOk willEntries willEntries w.props)
    (hp : w.props.val .payloadFormatIndicator = none) (rest : Bytes) :
    LastWill.read w.qos w.retain (willBody w ++ rest) = .ok (w, rest) := by
  have h1 := hS.syncRead (sp := willSync) rfl (by simpa [willSync] using hp)
    (strBytes w.topic ++ (binBytes w.payload ++ rest)) (.inl rfl)
  simp only [LastWill.read, willBody, List.append_assoc, Rd.bind_ok h1,
    Rd.bind_ok (readStr_strBytes _ _ h.2.1), Rd.bind_ok (readBin_binBytes _ _ h.2.2)]
  rfl

theorem asyncReadWill_ok {w : LastWill} (h : WillWF w) (hS : SectOk willEntries willEntries w.props)
    (rest : Bytes) :
    LastWill.asyncRead w.qos w.retain (willBody w ++ rest) =
      .ok ((w, (willBody w).length), rest) := by
  have h1 := hS.asyncRead (strBytes w.topic ++ (binBytes w.payload ++ rest))
  simp only [LastWill.asyncRead, willBody, List.append_assoc, Rd.bind_ok h1,
    Rd.bind_ok (asyncReadStr_strBytes _ _ h.2.1), Rd.bind_ok (asyncReadBin_binBytes _ _ h.2.2)]
  simp; omega

theorem readConnect_ok {c : Connect} (h : BodyOk (.connect c)) (ord : List Entry)
    (hp' : ¬ WillWithFormat (.connect c)) :
    Connect.read (Packet.bodyBytes ord (.connect c)) = .ok (c, []) := by
  have hp : ∀ w, c.lastWill = some w → w.props.val .payloadFormatIndicator = none := by
    simpa [WillWithFormat] using hp'
  have h1 := fun r => h.connectSect.syncRead (sp := connectSync) rfl (by simp [connectSync]) r
    (.inl rfl)
  have hw := fun w hw => readWill_ok (h.wf.2.2.1 w hw) (h.willSect hw) (hp w hw)
  obtain ⟨hP, hid, _, hu, hpw⟩ := h.wf
  simp only [Packet.bodyBytes, Connect.read, Rd.bind_ok (readBin_binBytes _ Connect.protocolName (by decide))]
  rw [if_neg (by simp)]
  simp only [Rd.bind_apply, readProtocolVersion, Rd.bufLen_apply, List.length_cons, Rd.ite_apply,
    getU8_cons]
  simp only [ConnectFlags.read_toU8, getU16_u16Bytes, h1, readStr_strBytes _ _ hid, Nat.add_one_ne_zero, if_false, if_true, Rd.pure_apply,
    show ¬ ((5 : UInt8) = 3 ∨ (5 : UInt8) = 4) by decide]
  obtain ⟨cs, lw, un, pw, ka, P, cid⟩ := c
  simp only at hw hu hpw ⊢
  cases lw with
  | none =>
    cases un with
    | none =>
      cases pw with
      | none => simp [Connect.flags, optWillBody, Connect.optStrBytes]
      | some v =>
        have := readStr_strBytes [] v (hpw v rfl)
        rw [List.append_nil] at this
        simp [Connect.flags, optWillBody, Connect.optStrBytes, this]
    | some u =>
      have hu := fun r => readStr_strBytes r u (hu u rfl)
      cases pw with
      | none => simp [Connect.flags, optWillBody, Connect.optStrBytes,
          (List.append_nil (strBytes u)) ▸ hu []]
      | some v =>
        have := readStr_strBytes [] v (hpw v rfl)
        rw [List.append_nil] at this
        simp [Connect.flags, optWillBody, Connect.optStrBytes, this, hu]
  | some w =>
    have hw := hw w rfl
    cases un with
    | none =>
      cases pw with
      | none => simp [Connect.flags, optWillBody, Connect.optStrBytes,
          (List.append_nil (willBody w)) ▸ hw []]
      | some v =>
        have := readStr_strBytes [] v (hpw v rfl)
        rw [List.append_nil] at this
        simp [Connect.flags, optWillBody, Connect.optStrBytes, this, hw]
    | some u =>
      have hu := fun r => readStr_strBytes r u (hu u rfl)
      cases pw with
      | none => simp [Connect.flags, optWillBody, Connect.optStrBytes, hw,
          (List.append_nil (strBytes u)) ▸ hu []]
      | some v =>
        have := readStr_strBytes [] v (hpw v rfl)
        rw [List.append_nil] at this
        simp [Connect.flags, optWillBody, Connect.optStrBytes, this, hu, hw]

theorem asyncReadConnect_ok {c : Connect} (h : BodyOk (.connect c)) (ord : List Entry) (rest : Bytes) :
    ∃ n, Connect.asyncRead (Packet.bodyBytes ord (.connect c) ++ rest) = .ok ((c, n), rest) := by
  have h1 := fun r => h.connectSect.asyncRead r
  have hw := fun w hw => asyncReadWill_ok (h.wf.2.2.1 w hw) (h.willSect hw)
  obtain ⟨hP, hid, _, hu, hpw⟩ := h.wf
  simp only [Packet.bodyBytes, Connect.asyncRead, List.append_assoc]
  have h6 : ∀ r, aExact 6 (binBytes Connect.protocolName ++ r) =
      .ok (binBytes Connect.protocolName, r) :=
    fun r => aExact_append r (binBytes Connect.protocolName)
  rw [Rd.bind_ok (h6 _), if_neg (by decide)]
  simp only [Rd.bind_apply, asyncReadProtocolVersion, Rd.ite_apply, List.cons_append, List.append_assoc,
    aU8_cons, ConnectFlags.asyncRead_toU8, aU16_u16Bytes, h1, asyncReadStr_strBytes _ _ hid, if_true,
    Rd.pure_apply]
  obtain ⟨cs, lw, un, pw, ka, P, cid⟩ := c
  simp only at hw hu hpw ⊢
  cases lw with
  | none =>
    cases un with
    | none =>
      cases pw with
      | none => simp [Connect.flags, optWillBody, Connect.optStrBytes]
      | some v =>
        have hv := fun r => asyncReadStr_strBytes r v (hpw v rfl)
        simp [Connect.flags, optWillBody, Connect.optStrBytes, hv]
    | some u =>
      have hu := fun r => asyncReadStr_strBytes r u (hu u rfl)
      cases pw with
      | none => simp [Connect.flags, optWillBody, Connect.optStrBytes, hu]
      | some v =>
        have hv := fun r => asyncReadStr_strBytes r v (hpw v rfl)
        simp [Connect.flags, optWillBody, Connect.optStrBytes, hv, hu]
  | some w =>
    have hw := hw w rfl
    cases un with
    | none =>
      cases pw with
      | none => simp [Connect.flags, optWillBody, Connect.optStrBytes, hw]
      | some v =>
        have hv := fun r => asyncReadStr_strBytes r v (hpw v rfl)
        simp [Connect.flags, optWillBody, Connect.optStrBytes, hv, hw]
    | some u =>
      have hu := fun r => asyncReadStr_strBytes r u (hu u rfl)
      cases pw with
      | none => simp [Connect.flags, optWillBody, Connect.optStrBytes, hw, hu]
      | some v =>
        have hv := fun r => asyncReadStr_strBytes r v (hpw v rfl)
        simp [Connect.flags, optWillBody, Connect.optStrBytes, hv, hu, hw]

/-! ## All packets -/

theorem disconnect_short {d : ReasonProps} (h : PropsWF disconnectEntries d.props)
    (ha : AuthDataNonempty d.props) (hl : Disconnect.isLong d = false) : d = ⟨.normalDisconnection, .empty⟩ := by
  obtain ⟨r, P⟩ := d
  simp [Disconnect.isLong] at hl
  have := Props.eq_empty_of_wireLen h ha (by decide) hl.2
  simp only at this
  rw [hl.1, this]

theorem readConnAck_ok {c : ConnAck} (h : BodyOk (.connAck c)) {ord : List Entry}
    (ho : ord.Perm publishEntries) :
    ConnAck.read c.wireLen (Packet.bodyBytes ord (.connAck c)) = .ok (c, []) := by
  have h1 := h.connAckSect.syncRead (sp := connAckSync) rfl (by simp [connAckSync]) [] (.inl rfl)
  rw [List.append_nil] at h1
  have hl := h.length ho
  simp only [Packet.bodyWireLen] at hl
  rw [ConnAck.read, Rd.bufLen_bind, hl, if_neg (by omega)]
  cases hsp : c.sessionPresent <;>
    simp [Packet.bodyBytes, Rd.bind_apply, ConnAck.readFlags, hsp, boolBytes,
      Reason.read_toU8 nodup_codes.1 h.wf.1, h1] <;>
    (rw [← hsp])

theorem asyncReadConnAck_ok {c : ConnAck} (h : BodyOk (.connAck c)) (ord : List Entry)
    (rest : Bytes) :
    ∃ n, ConnAck.asyncRead (Packet.bodyBytes ord (.connAck c) ++ rest) = .ok ((c, n), rest) := by
  have h1 := h.connAckSect.asyncRead rest
  cases hsp : c.sessionPresent <;>
    simp [Packet.bodyBytes, Rd.bind_apply, ConnAck.asyncRead, ConnAck.asyncReadFlags, hsp, boolBytes,
      Reason.asyncRead_toU8 nodup_codes.1 h.wf.1, h1] <;>
    (rw [← hsp])

theorem readDisconnect_ok {d : ReasonProps} (h : BodyOk (.disconnect d)) (ord : List Entry) :
    Disconnect.read (Disconnect.wireLen d) (Packet.bodyBytes ord (.disconnect d)) = .ok (d, []) := by
  simp only [Packet.bodyBytes]
  by_cases hl : Disconnect.isLong d = true
  · have h1 := h.disconnectSect.syncRead (sp := disconnectSync) rfl (by simp [disconnectSync]) []
      (.inl rfl)
    rw [List.append_nil] at h1
    rw [Disconnect.read, Disconnect.wireLen, if_pos hl, if_pos hl, if_neg (by omega)]
    simp [Rd.bind_apply, Reason.read_toU8 nodup_codes.2.2.2.2.2.2.2.1 h.wf.1, h1]
  · rw [Disconnect.read, Disconnect.wireLen, if_neg hl, if_neg hl, if_pos rfl]
    have := disconnect_short h.wf.2 h.disconnectSect.auth (by simpa using hl)
    simp [← this]

theorem asyncReadDisconnect_ok {d : ReasonProps} (h : BodyOk (.disconnect d)) (ord : List Entry)
    (rest : Bytes) :
    ∃ n, Disconnect.asyncRead (Disconnect.wireLen d)
      (Packet.bodyBytes ord (.disconnect d) ++ rest) = .ok ((d, n), rest) := by
  simp only [Packet.bodyBytes]
  by_cases hl : Disconnect.isLong d = true
  · have h1 := h.disconnectSect.asyncRead rest
    rw [Disconnect.asyncRead, Disconnect.wireLen, if_pos hl, if_pos hl, if_neg (by omega)]
    simp [Rd.bind_apply, Reason.asyncRead_toU8 nodup_codes.2.2.2.2.2.2.2.1 h.wf.1, h1]
  · rw [Disconnect.asyncRead, Disconnect.wireLen, if_neg hl, if_neg hl, if_pos rfl]
    have := disconnect_short h.wf.2 h.disconnectSect.auth (by simpa using hl)
    simp [← this]

theorem readAuth_ok {a : ReasonProps} (h : BodyOk (.auth a)) (ord : List Entry) :
    Auth.read (Packet.bodyBytes ord (.auth a)) = .ok (a, []) := by
  have h1 := h.authSect.syncRead (sp := authSync) rfl (by simp [authSync]) [] (.inl rfl)
  rw [List.append_nil] at h1
  simp [Packet.bodyBytes, Auth.read, Rd.bind_apply,
    Reason.read_toU8 nodup_codes.2.2.2.2.2.2.2.2 h.wf.1, h1]

theorem asyncReadAuth_ok {a : ReasonProps} (h : BodyOk (.auth a)) (ord : List Entry) (rest : Bytes) :
    ∃ n, Auth.asyncRead (Packet.bodyBytes ord (.auth a) ++ rest) = .ok ((a, n), rest) := by
  have h1 := h.authSect.asyncRead rest
  simp [Packet.bodyBytes, Auth.asyncRead, Rd.bind_apply,
    Reason.asyncRead_toU8 nodup_codes.2.2.2.2.2.2.2.2 h.wf.1, h1]

theorem BodyOk.read {p : Packet} (h : BodyOk p) (hw : ¬ WillWithFormat p) (hr : ¬ ShortAck p) {ord : List Entry}
    (ho : ord.Perm publishEntries) :
    Packet.bodyRead p.header (p.bodyBytes ord) = .ok (p, []) := by
  cases p with
  | connect c => exact Rd.map_ok (readConnect_ok h ord hw)
  | connAck c => exact Rd.map_ok (readConnAck_ok h ho)
  | publish p => exact Rd.map_ok (readPublish_ok h ho)
  | pubAck a => exact Rd.map_ok (readPubAck_ok h.wf h.fit (h.auth _ (by simp [Spec.propSets])))
  | pubRec a =>
    exact Rd.map_ok (readRecComp_ok h.wf h.fit (h.auth _ (by simp [Spec.propSets]))
      nodup_codes.2.2.1 rfl rfl hr)
  | pubRel a => exact Rd.map_ok (readPubRel_ok h.wf h.fit (h.auth _ (by simp [Spec.propSets])))
  | pubComp a =>
    exact Rd.map_ok (readRecComp_ok h.wf h.fit (h.auth _ (by simp [Spec.propSets]))
      nodup_codes.2.2.2.2.1 rfl rfl hr)
  | subscribe s => exact Rd.map_ok (readSubscribe_ok h ord)
  | subAck a => exact Rd.map_ok (readSubAck_ok h.wf h.subAckSect)
  | unsubscribe s => exact Rd.map_ok (readUnsubscribe_ok h ord)
  | unsubAck a => exact Rd.map_ok (readUnsubAck_ok h.wf h.unsubAckSect)
  | pingReq => rfl
  | pingResp => rfl
  | disconnect d => exact Rd.map_ok (readDisconnect_ok h ord)
  | auth a => exact Rd.map_ok (readAuth_ok h ord)


theorem BodyOk.asyncRead {p : Packet} (h : BodyOk p) (hr : ¬ ShortAck p) (hm : ¬ ManyTopics p) {ord : List Entry}
    (ho : ord.Perm publishEntries) (rest : Bytes) :
    Packet.asyncReadPacket p.header (p.bodyBytes ord ++ rest) = .ok (p, rest) := by
  cases p with
  | connect c =>
    obtain ⟨n, e⟩ := asyncReadConnect_ok h ord rest
    exact Rd.map_ok e
  | connAck c =>
    obtain ⟨n, e⟩ := asyncReadConnAck_ok h ord rest
    exact Rd.map_ok e
  | publish p => exact Rd.map_ok (asyncReadPublish_ok h ho rest)
  | pubAck a => exact Rd.map_ok (asyncReadPubAck_ok h.wf h.fit (h.auth _ (by simp [Spec.propSets])) rest)
  | pubRec a =>
    exact Rd.map_ok (asyncReadPubRec_ok h.wf h.fit (h.auth _ (by simp [Spec.propSets])) hr rest)
  | pubRel a => exact Rd.map_ok (asyncReadPubRel_ok h.wf h.fit (h.auth _ (by simp [Spec.propSets])) rest)
  | pubComp a =>
    exact Rd.map_ok (asyncReadPubComp_ok h.wf h.fit (h.auth _ (by simp [Spec.propSets])) hr rest)
  | subscribe s => exact Rd.map_ok (asyncReadSubscribe_ok h ord (by simpa [ManyTopics] using hm) rest)
  | subAck a => exact Rd.map_ok (asyncReadSubAck_ok h.wf h.subAckSect rest)
  | unsubscribe s => exact Rd.map_ok (asyncReadUnsubscribe_ok h ord rest)
  | unsubAck a => exact Rd.map_ok (asyncReadUnsubAck_ok h.wf h.unsubAckSect rest)
  | pingReq => rfl
  | pingResp => rfl
  | disconnect d =>
    obtain ⟨n, e⟩ := asyncReadDisconnect_ok h ord rest
    exact Rd.map_ok e
  | auth a =>
    obtain ⟨n, e⟩ := asyncReadAuth_ok h ord rest
    exact Rd.map_ok e

end Mqrstt
