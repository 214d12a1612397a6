import Verif.Proof.Local
import Verif.Proof.Sizes
import Verif.Proof.Witness
import Verif.Spec.ShortForms
/-!
# C13, C15, C53, C54: the readers on arbitrary bytes
-/

namespace Mqrstt.Props
open Mqrstt Spec Witness

/-! ## C13 -/

/-- **C13 (partial).** (1) Whatever the stream contains, when the streaming reader returns a PUBLISH,
PUBCOMP or SUBACK it has consumed exactly one frame of that type. (2) For every packet type: a frame
that the reader, given nothing but that frame, reads to its end, is read in the same way whatever
follows. (3) For every stream: what the reader returns, packet or decoding error, does not depend on
bytes that arrive later. Missing: malformed frames of the other types, for which the claim is false,
see `C13_streaming_isolation_violated`. -/
theorem C13_streaming_isolation_partial :
    (∀ b p rest, Packet.asyncRead b = .ok (p, rest) → p.type ∈ [.publish, .pubComp, .subAck] →
      ∃ f, IsFrame p.type f ∧ b = f ++ rest) ∧
    (∀ t f p, IsFrame t f → Packet.asyncRead f = .ok (p, []) →
      ∀ rest, Packet.asyncRead (f ++ rest) = .ok (p, rest)) ∧
    (∀ b more, (∀ p rest, Packet.asyncRead b = .ok (p, rest) →
        Packet.asyncRead (b ++ more) = .ok (p, rest ++ more)) ∧
      (∀ e, Packet.asyncRead b = .error (.de e) → Packet.asyncRead (b ++ more) = .error (.de e))) := by
  refine ⟨?_, fun t f p _ h rest => (Packet.asyncRead_local f rest).1 _ _ h,
    fun b more => Packet.asyncRead_local b more⟩
  intro b p rest h ht
  obtain ⟨⟨hdr, k⟩, b1, h1, h2⟩ := Rd.bind_eq_ok.1 h
  obtain ⟨first, b2, g1, g2⟩ := Rd.bind_eq_ok.1 h1
  rw [aU8_ok g1]
  obtain ⟨⟨t, flags⟩, b3, g3, g4⟩ := Rd.bind_eq_ok.1 g2
  obtain ⟨hf, rfl⟩ := lift_ok_inv g3
  obtain ⟨⟨n, l⟩, b4, g5, g6⟩ := Rd.bind_eq_ok.1 g4
  obtain ⟨len, rfl, hv, rfl, -⟩ := VarInt.asyncRead_ok g5
  cases g6
  have hty := Packet.asyncReadPacket_type h2
  simp only at hty
  -- the body reader consumes exactly the announced length
  suffices hs : ∃ body, b1 = body ++ rest ∧ body.length = vbiValue len by
    obtain ⟨body, rfl, hb⟩ := hs
    refine ⟨first :: (len ++ body), ⟨first, len, body, rfl, ?_, hv, hb.symm⟩, by simp⟩
    rw [hty]
    exact ((C06_first_byte_accepted first).1 t).1 ⟨_, hf⟩
  rw [hty] at ht
  simp only [List.mem_cons, List.not_mem_nil, or_false] at ht
  rcases ht with rfl | rfl | rfl
  · obtain ⟨⟨q, total⟩, b5, h3, h4⟩ := Rd.bind_eq_ok.1 h2
    cases h4
    obtain ⟨qos, b6, k1, k2⟩ := Rd.bind_eq_ok.1 h3
    obtain ⟨-, rfl⟩ := lift_ok_inv k1
    obtain ⟨⟨topic, m1⟩, b7, k3, k4⟩ := Rd.bind_eq_ok.1 k2
    obtain ⟨p1, rfl, rfl⟩ := asyncReadStr_counts _ _ _ _ k3
    simp only [Rd.ite_apply] at k4
    split at k4
    · obtain ⟨o, b7', k4', k4⟩ := Rd.bind_eq_ok.1 k4
      cases k4'
      obtain ⟨⟨P, m2⟩, b8, k5, k6⟩ := Rd.bind_eq_ok.1 k4
      obtain ⟨p2, rfl, rfl⟩ := Props.asyncRead_counts _ _ _ _ _ k5
      simp only [Rd.ite_apply] at k6
      split at k6
      · cases k6
      · obtain ⟨pl, b9, k7, k8⟩ := Rd.bind_eq_ok.1 k6
        obtain ⟨rfl, hpl⟩ := aExact_ok k7
        cases k8
        exact ⟨p1 ++ (p2 ++ pl), by simp, by simp; omega⟩
    · obtain ⟨id, b8, k5, k6⟩ := Rd.bind_eq_ok.1 k4
      obtain ⟨y, z, rfl, rfl⟩ := aU16_ok k5
      obtain ⟨o, b8', k6', k6⟩ := Rd.bind_eq_ok.1 k6
      cases k6'
      obtain ⟨⟨P, m2⟩, b9, k7, k8⟩ := Rd.bind_eq_ok.1 k6
      obtain ⟨p2, rfl, rfl⟩ := Props.asyncRead_counts _ _ _ _ _ k7
      simp only [Rd.ite_apply] at k8
      split at k8
      · cases k8
      · obtain ⟨pl, b10, k9, k10⟩ := Rd.bind_eq_ok.1 k8
        obtain ⟨rfl, hpl⟩ := aExact_ok k9
        cases k10
        exact ⟨p1 ++ (y :: z :: (p2 ++ pl)), by simp, by simp; omega⟩
  · obtain ⟨⟨q, total⟩, b5, h3, h4⟩ := Rd.bind_eq_ok.1 h2
    cases h4
    obtain ⟨id, b6, k1, k2⟩ := Rd.bind_eq_ok.1 h3
    obtain ⟨y, z, rfl, rfl⟩ := aU16_ok k1
    simp only [Rd.ite_apply] at k2
    split at k2
    · rename_i hr
      cases k2
      exact ⟨[y, z], rfl, hr.symm⟩
    · split at k2
      · cases k2
      · obtain ⟨⟨r, m1⟩, b7, k3, k4⟩ := Rd.bind_eq_ok.1 k2
        obtain ⟨p1, rfl, rfl⟩ := Reason.asyncRead_counts _ _ _ _ _ k3
        obtain ⟨⟨P, m2⟩, b8, k5, k6⟩ := Rd.bind_eq_ok.1 k4
        obtain ⟨p2, rfl, rfl⟩ := Props.asyncRead_counts _ _ _ _ _ k5
        simp only [Rd.ite_apply] at k6
        split at k6
        · cases k6
        · rename_i hne
          cases k6
          exact ⟨y :: z :: (p1 ++ p2), by simp, by simp; omega⟩
  · obtain ⟨⟨q, total⟩, b5, h3, h4⟩ := Rd.bind_eq_ok.1 h2
    cases h4
    obtain ⟨id, b6, k1, k2⟩ := Rd.bind_eq_ok.1 h3
    obtain ⟨y, z, rfl, rfl⟩ := aU16_ok k1
    obtain ⟨⟨P, m2⟩, b8, k5, k6⟩ := Rd.bind_eq_ok.1 k2
    obtain ⟨p2, rfl, rfl⟩ := Props.asyncRead_counts _ _ _ _ _ k5
    obtain ⟨n, b9, k7, k8⟩ := Rd.bind_eq_ok.1 k6
    cases k7
    obtain ⟨⟨cs, t⟩, b10, k9, k10⟩ := Rd.bind_eq_ok.1 k8
    cases k10
    obtain ⟨e1, p3, rfl, e2⟩ := CodesAck.asyncCodesEq_counts _ _ _ _ _ _ _ _ k9
    have e1 : _ = vbiValue len := e1
    exact ⟨y :: z :: (p2 ++ p3), by simp, by simp; omega⟩

/-- a PUBLISH with a payload, followed by the start of another packet -/
example : ∃ p, Packet.asyncRead [0x30, 5, 0, 1, 97, 0, 9, 0x40] = .ok (.publish p, [0x40]) := ⟨_, rfl⟩

/-- **C13 is false of the code**: (1) a three-byte PUBREC, which MQTT allows, swallows the first byte
of the next packet, here a PUBACK; (2) what follows the announced end of a CONNACK's properties stays
in the stream; (3) so does the body of a PINGRESP that has one. -/
theorem C13_streaming_isolation_violated :
    (IsFrame .pubRec [0x50, 3, 0, 1, 0x10] ∧
      ∃ e, Packet.asyncRead ([0x50, 3, 0, 1, 0x10] ++ [0x40, 2, 0, 9]) = .error (.de e)) ∧
    (IsFrame .connAck [0x20, 5, 0, 0, 0, 1, 2] ∧
      ∃ p, Packet.asyncRead [0x20, 5, 0, 0, 0, 1, 2] = .ok (p, [1, 2])) ∧
    (IsFrame .pingResp [0xD0, 1, 0] ∧ Packet.asyncRead [0xD0, 1, 0] = .ok (.pingResp, [0])) :=
  ⟨⟨⟨0x50, [3], [0, 1, 0x10], rfl, by constructor <;> simp [typeNumber, mandatedFlags],
      ⟨[], 3, rfl, by decide, by simp, by simp [more]⟩, rfl⟩, _, rfl⟩,
    ⟨⟨0x20, [5], [0, 0, 0, 1, 2], rfl, by constructor <;> simp [typeNumber, mandatedFlags],
      ⟨[], 5, rfl, by decide, by simp, by simp [more]⟩, rfl⟩, _, rfl⟩,
    ⟨0xD0, [1], [0], rfl, by constructor <;> simp [typeNumber, mandatedFlags],
      ⟨[], 1, rfl, by decide, by simp, by simp [more]⟩, rfl⟩, rfl⟩

/-! ## C15 -/

/-- **C15 (partial).** On every byte string the streaming reader, and on every byte string that does not
start with the first byte of a CONNECT the buffered reader, ends without a panic (and the loops of the
readers end: `fuel` is the model's mark of a loop that does not). Missing: the buffered reader on
CONNECT, for which the claim is false, see `C15_no_panic_violated`. -/
theorem C15_no_panic_partial (b : Bytes) :
    (∀ e, Packet.asyncRead b = .error e → e ≠ .panic ∧ e ≠ .fuel) ∧
    (b.head? ≠ some 0x10 → ∀ e, (Packet.read b).1 = .error (.err e) → e ≠ .panic ∧ e ≠ .fuel) := by
  refine ⟨Packet.asyncRead_safe b, ?_⟩
  intro hb e h
  rcases Packet.read_cases b with ⟨first, len, body, rest', t, flags, rfl, ht, hv, hl⟩ | ⟨n, hn⟩ | ⟨e', he⟩
  · rw [Packet.read_isVbi ht hv hl] at h
    simp only [Packet.readPacket] at h
    cases hr : Packet.bodyRead ⟨t, flags, body.length⟩ body with
    | ok q => rw [hr] at h; cases h
    | error e' =>
      rw [hr] at h
      cases h
      refine Packet.bodyRead_safe _ ?_ _ _ hr
      rintro rfl
      have := ((C06_first_byte_accepted first).1 .connect).1 ⟨_, ht⟩
      obtain ⟨g1, g2⟩ := this
      have g3 := g2 0 rfl
      apply hb
      simp only [List.head?_cons, Option.some.injEq]
      apply UInt8.toNat_inj.1
      simp only [typeNumber] at g1
      have : (0x10 : UInt8).toNat = 16 := rfl
      omega
  · rw [hn] at h; cases h
  · rw [he] at h; cases h; exact ⟨by simp, by simp⟩

example : ([0x20, 1, 0] : Bytes).head? ≠ some 0x10 ∧ ∃ e, (Packet.read [0x20, 1, 0]).1 = .error e :=
  ⟨by decide, _, rfl⟩

/-- **C15 is false of the code**: a CONNECT that ends after its flags makes the buffered reader
panic. -/
theorem C15_no_panic_violated :
    (Packet.read [0x10, 8, 0, 4, 77, 81, 84, 84, 5, 0]).1 = .error (.err .panic) := rfl

/-! ## C53 -/

theorem readFrame_of {first : UInt8} {t : PacketType} {flags : UInt8} {body : Bytes} {p : Packet}
    (ht : PacketType.fromFirstByte first = .ok (t, flags)) (hb : body.length < 128)
    (h : ∃ r, Packet.bodyRead ⟨t, flags, body.length⟩ body = .ok (p, r)) (rest : Bytes) :
    Packet.read ([first, UInt8.ofNat body.length] ++ body ++ rest) = (.ok p, rest) := by
  have hn : (UInt8.ofNat body.length).toNat = body.length := by
    rw [UInt8.toNat_ofNat']; omega
  have hv : IsVbi [UInt8.ofNat body.length] :=
    ⟨[], _, rfl, by decide, by simp, by unfold more; omega⟩
  have := Packet.read_isVbi (body := body) ht hv (by simp only [vbiValue, hn]; omega) rest
  obtain ⟨r, h⟩ := h
  simp only [Packet.readPacket, h] at this
  exact this

theorem asyncReadFrame_of {first : UInt8} {t : PacketType} {flags : UInt8} {body rest : Bytes}
    {r : Except Fail (Packet × Bytes)}
    (ht : PacketType.fromFirstByte first = .ok (t, flags)) (hb : body.length < 128)
    (h : Packet.asyncReadPacket ⟨t, flags, body.length⟩ (body ++ rest) = r) :
    Packet.asyncRead ([first, UInt8.ofNat body.length] ++ body ++ rest) = r := by
  have hn : (UInt8.ofNat body.length).toNat = body.length := by
    rw [UInt8.toNat_ofNat']; omega
  have hv : IsVbi [UInt8.ofNat body.length] :=
    ⟨[], _, rfl, by decide, by simp, by unfold more; omega⟩
  have hh := FixedHeader.asyncRead_isVbi first hv (body ++ rest)
  have hval : vbiValue [UInt8.ofNat body.length] = body.length := by simp only [vbiValue, hn]; omega
  rw [ht, hval] at hh
  exact (Rd.bind_ok hh).trans h

theorem zeroProps :
    (∀ sp ∈ [pubAckSync, pubRecSync, pubRelSync, pubCompSync, disconnectSync, authSync],
      Props.syncRead sp [0] = .ok (.empty, [])) ∧
    (∀ es rest, Props.asyncRead es (0 :: rest) = .ok ((.empty, 1), rest)) := by
  constructor
  · intro sp h
    simp only [List.mem_cons, List.not_mem_nil, or_false] at h
    rcases h with rfl | rfl | rfl | rfl | rfl | rfl <;> rfl
  · intro es rest; rfl

/-- **C53 (partial).** Both readers understand every legal short form of an acknowledgement, DISCONNECT
or AUTH, in front of any further bytes, except the four of `Misread`. Missing: those, see
`C53_short_forms_violated`. -/
theorem C53_short_forms_partial {p : Packet} {bs : Bytes} (h : ShortForm p bs) (x : ¬ Misread p bs)
    (rest : Bytes) :
    Packet.read (bs ++ rest) = (.ok p, rest) ∧ Packet.asyncRead (bs ++ rest) = .ok (p, rest) := by
  obtain ⟨hs, ha⟩ := zeroProps
  obtain ⟨-, n1, n2, n3, n4, -, -, n5, n6⟩ := nodup_codes
  cases h with
  | ackId h id =>
    simp only [ackKinds, List.mem_cons, List.not_mem_nil, or_false, Prod.mk.injEq] at h
    rcases h with ⟨rfl, rfl, rfl⟩ | ⟨rfl, rfl, rfl⟩ | ⟨rfl, rfl, rfl⟩ | ⟨rfl, rfl, rfl⟩ <;>
      exact ⟨readFrame_of (body := u16Bytes id) rfl (by simp) ⟨[], by
          simp [Packet.bodyRead, Ack.readPubAck, Ack.readPubRec, Ack.readPubRel, Ack.readPubComp,
            Ack.readRecComp, Rd.bind_apply]⟩ rest,
        asyncReadFrame_of (body := u16Bytes id) rfl (by simp) (by
          simp [Packet.asyncReadPacket, Ack.asyncReadPubAck, Ack.asyncReadPubRec,
            Ack.asyncReadPubRel, Ack.asyncReadPubComp, Rd.bind_apply])⟩
  | ackReason h id c hc =>
    simp only [ackKinds, List.mem_cons, List.not_mem_nil, or_false, Prod.mk.injEq] at h
    rcases h with ⟨rfl, rfl, rfl⟩ | ⟨rfl, rfl, rfl⟩ | ⟨rfl, rfl, rfl⟩ | ⟨rfl, rfl, rfl⟩
    · rw [List.append_assoc [_, _]]
      exact ⟨readFrame_of (body := u16Bytes id ++ [c.toU8]) rfl (by simp) ⟨[], by
          simp [Packet.bodyRead, Ack.readPubAck, Rd.bind_apply, Reason.read_toU8 n1 hc]⟩ rest,
        asyncReadFrame_of (body := u16Bytes id ++ [c.toU8]) rfl (by simp) (by
          simp [Packet.asyncReadPacket, Ack.asyncReadPubAck, Rd.bind_apply,
            Reason.asyncRead_toU8 n1 hc])⟩
    · exact absurd (by simp [Misread]) x
    · rw [List.append_assoc [_, _]]
      exact ⟨readFrame_of (body := u16Bytes id ++ [c.toU8]) rfl (by simp) ⟨[], by
          simp [Packet.bodyRead, Ack.readPubRel, Rd.bind_apply, Reason.read_toU8 n3 hc]⟩ rest,
        asyncReadFrame_of (body := u16Bytes id ++ [c.toU8]) rfl (by simp) (by
          simp [Packet.asyncReadPacket, Ack.asyncReadPubRel, Rd.bind_apply,
            Reason.asyncRead_toU8 n3 hc])⟩
    · exact absurd (by simp [Misread]) x
  | @ackFull mk first codes h id c hc =>
    rw [List.append_assoc [_, _]]
    simp only [ackKinds, List.mem_cons, List.not_mem_nil, or_false, Prod.mk.injEq] at h
    have hd : (codes.map Reason.toU8).Nodup := by
      rcases h with ⟨-, -, rfl⟩ | ⟨-, -, rfl⟩ | ⟨-, -, rfl⟩ | ⟨-, -, rfl⟩ <;> assumption
    have r1 := Reason.read_toU8 hd hc
    have r2 := Reason.asyncRead_toU8 hd hc
    rcases h with ⟨rfl, rfl, rfl⟩ | ⟨rfl, rfl, rfl⟩ | ⟨rfl, rfl, rfl⟩ | ⟨rfl, rfl, rfl⟩ <;>
      exact ⟨readFrame_of (body := u16Bytes id ++ [c.toU8, 0]) rfl (by simp) ⟨[], by
          simp [Packet.bodyRead, Ack.readPubAck, Ack.readPubRec, Ack.readPubRel, Ack.readPubComp,
            Ack.readRecComp, Rd.bind_apply, r1, hs]⟩ rest,
        asyncReadFrame_of (body := u16Bytes id ++ [c.toU8, 0]) rfl (by simp) (by
          simp [Packet.asyncReadPacket, Ack.asyncReadPubAck, Ack.asyncReadPubRec,
            Ack.asyncReadPubRel, Ack.asyncReadPubComp, Rd.bind_apply, r2, ha])⟩
  | disconnect0 =>
    exact ⟨readFrame_of (body := []) rfl (by decide) ⟨[], rfl⟩ rest,
      asyncReadFrame_of (body := []) rfl (by decide) rfl⟩
  | disconnect1 c hc => exact absurd rfl x
  | disconnect2 c hc =>
    exact ⟨readFrame_of (body := [c.toU8, 0]) rfl (by simp) ⟨[], by
        simp [Packet.bodyRead, Disconnect.read, Rd.bind_apply, Reason.read_toU8 n5 hc, hs]⟩ rest,
      asyncReadFrame_of (body := [c.toU8, 0]) rfl (by simp) (by
        simp [Packet.asyncReadPacket, Disconnect.asyncRead, Rd.bind_apply,
          Reason.asyncRead_toU8 n5 hc, ha])⟩
  | auth0 => exact absurd rfl x
  | auth2 c hc =>
    exact ⟨readFrame_of (body := [c.toU8, 0]) rfl (by simp) ⟨[], by
        simp [Packet.bodyRead, Auth.read, Rd.bind_apply, Reason.read_toU8 n6 hc, hs]⟩ rest,
      asyncReadFrame_of (body := [c.toU8, 0]) rfl (by simp) (by
        simp [Packet.asyncReadPacket, Auth.asyncRead, Rd.bind_apply,
          Reason.asyncRead_toU8 n6 hc, ha])⟩

/-- a three-byte PUBREL with packet identifier not found -/
example : ShortForm (.pubRel ⟨7, .packetIdentifierNotFound, .empty⟩) [0x62, 3, 0, 7, 0x92] ∧
    ¬ Misread (.pubRel ⟨7, .packetIdentifierNotFound, .empty⟩) [0x62, 3, 0, 7, 0x92] :=
  ⟨.ackReason (mk := .pubRel) (first := 0x62) (codes := Reason.pubRel) (by simp [ackKinds]) 7
    .packetIdentifierNotFound (by decide), by simp [Misread]⟩

theorem readFrame_err {first : UInt8} {t : PacketType} {flags : UInt8} {body : Bytes}
    (ht : PacketType.fromFirstByte first = .ok (t, flags)) (hb : body.length < 128)
    (h : ∃ e, Packet.bodyRead ⟨t, flags, body.length⟩ body = .error e) (rest : Bytes) :
    ∃ e, Packet.read ([first, UInt8.ofNat body.length] ++ body ++ rest) = (.error e, rest) := by
  have hn : (UInt8.ofNat body.length).toNat = body.length := by
    rw [UInt8.toNat_ofNat']; omega
  have hv : IsVbi [UInt8.ofNat body.length] :=
    ⟨[], _, rfl, by decide, by simp, by unfold more; omega⟩
  have := Packet.read_isVbi (body := body) ht hv (by simp only [vbiValue, hn]; omega) rest
  obtain ⟨r, h⟩ := h
  simp only [Packet.readPacket, h] at this
  exact ⟨_, this⟩

/-- **C53 is false of the code**: all the legal short forms of `Misread` are refused by the buffered
reader, and the streaming reader, given the whole packet, does not recognise it. -/
theorem C53_short_forms_violated :
    (∃ p bs, ShortForm p bs ∧ Misread p bs) ∧
    ∀ p bs, ShortForm p bs → Misread p bs →
      (∀ rest, ∃ e, Packet.read (bs ++ rest) = (.error e, rest)) ∧
      ∃ e, Packet.asyncRead bs = .error e := by
  refine ⟨⟨_, _, .disconnect1 .normalDisconnection (by decide), rfl⟩, ?_⟩
  intro p bs h x
  obtain ⟨-, n1, n2, n3, n4, -, -, n5, n6⟩ := nodup_codes
  cases h with
  | ackId h id =>
    simp only [ackKinds, List.mem_cons, List.not_mem_nil, or_false, Prod.mk.injEq] at h
    rcases h with ⟨rfl, rfl, rfl⟩ | ⟨rfl, rfl, rfl⟩ | ⟨rfl, rfl, rfl⟩ | ⟨rfl, rfl, rfl⟩ <;>
      simp [Misread] at x
  | ackReason h id c hc =>
    simp only [ackKinds, List.mem_cons, List.not_mem_nil, or_false, Prod.mk.injEq] at h
    rcases h with ⟨rfl, rfl, rfl⟩ | ⟨rfl, rfl, rfl⟩ | ⟨rfl, rfl, rfl⟩ | ⟨rfl, rfl, rfl⟩
    · exact x.elim
    · rw [List.append_assoc [_, _]]
      refine ⟨readFrame_err (body := u16Bytes id ++ [c.toU8]) rfl (by simp) ⟨_, rfl⟩, .eof, ?_⟩
      have := asyncReadFrame_of (first := 0x50) (body := u16Bytes id ++ [c.toU8]) (rest := []) rfl (by simp) rfl
      rw [List.append_nil] at this
      refine this.trans ?_
      simp [Packet.asyncReadPacket, Ack.asyncReadPubRec, Rd.bind_apply,
            Reason.asyncRead_toU8 n2 hc]
      rfl
    · exact x.elim
    · rw [List.append_assoc [_, _]]
      refine ⟨readFrame_err (body := u16Bytes id ++ [c.toU8]) rfl (by simp) ⟨_, rfl⟩, _,
        (by rw [← List.append_nil (_ ++ _)]
            exact asyncReadFrame_of (first := 0x70) (body := u16Bytes id ++ [c.toU8]) (rest := []) rfl (by simp) rfl)⟩
  | ackFull h id c hc =>
    simp only [ackKinds, List.mem_cons, List.not_mem_nil, or_false, Prod.mk.injEq] at h
    rcases h with ⟨rfl, rfl, rfl⟩ | ⟨rfl, rfl, rfl⟩ | ⟨rfl, rfl, rfl⟩ | ⟨rfl, rfl, rfl⟩ <;>
      simp [Misread] at x
  | disconnect0 => simp [Misread] at x
  | disconnect1 c hc =>
    refine ⟨readFrame_err (body := [c.toU8]) rfl (by simp) ?_, .eof, ?_⟩
    · simp [Packet.bodyRead, Disconnect.read, Rd.bind_apply, Reason.read_toU8 n5 hc]
      exact ⟨_, rfl⟩
    · have := asyncReadFrame_of (first := 0xE0) (body := [c.toU8]) (rest := []) rfl (by simp) rfl
      rw [List.append_nil] at this
      refine this.trans ?_
      simp [Packet.asyncReadPacket, Disconnect.asyncRead, Rd.bind_apply, Reason.asyncRead_toU8 n5 hc]
      rfl
  | disconnect2 c hc => simp [Misread] at x
  | auth0 =>
    exact ⟨readFrame_err (body := []) rfl (by simp) ⟨_, rfl⟩, _, rfl⟩
  | auth2 c hc => simp [Misread] at x

end Mqrstt.Props
