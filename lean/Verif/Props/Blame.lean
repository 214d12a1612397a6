import Verif.Proof.BlamePackets
/-! # Decoding errors say what is wrong (C110) -/

namespace Mqrstt.Props
open Mqrstt Mqrstt.Spec _root_.Spec

/-- **C110**, the decoder that works on a buffer. If it reports an error, then what the error says is true: either of the
fixed header, in which case nothing is taken from the buffer, or of the packet at the front of the buffer, which is taken.
Missing: the slips listed in `BufferSlip`. -/
theorem C110_buffered_partial (buf rest : Bytes) (e : DeErr) (h : Packet.read buf = (.error (.err (.de e)), rest)) :
    ∃ v after, buf = v :: after ∧
      ((HeaderBlame v after e ∧ rest = buf) ∨
       ∃ k len body, FirstByteAllowed k v ∧ after = len ++ (body ++ rest) ∧ IsVbi len ∧ vbiValue len = body.length ∧
         (Justified k body.length body e ∨ BufferSlip k body.length body e)) := by
  match buf with
  | [] => cases h
  | [v] => cases h
  | v :: w :: tail =>
    refine ⟨v, w :: tail, rfl, ?_⟩
    generalize hr : w :: tail = after at h
    cases hv : PacketType.fromFirstByte v with
    | error e' =>
      have hb : Packet.read (v :: after) = (.error (.err (.de e')), v :: after) := by
        rw [Packet.read, FixedHeader.read, if_neg (by simp [← hr])]
        simp only [hv]
      rw [hb] at h
      obtain ⟨rfl, hn⟩ := firstByte_error hv
      simp only [Prod.mk.injEq, Except.error.injEq, ReadBytes.err.injEq, Fail.de.injEq] at h
      obtain ⟨rfl, rfl⟩ := h
      exact .inl ⟨.inl ⟨rfl, hn⟩, rfl⟩
    | ok tf =>
      obtain ⟨t, f⟩ := tf
      have ht := firstByte_ok hv
      rcases VarInt.vbi_or_open 4 after with ⟨init, last, tl, e1, h1, h2, h3⟩ | ho
      · have hlen : IsVbi (init ++ [last]) := ⟨init, last, rfl, h1, h2, h3⟩
        have e1 : after = (init ++ [last]) ++ tl := by simp [e1]
        subst e1
        by_cases hsz : vbiValue (init ++ [last]) ≤ tl.length
        · have hb := Packet.read_isVbi hv hlen (body := tl.take (vbiValue (init ++ [last]))) (by simp [hsz])
            (tl.drop (vbiValue (init ++ [last])))
          rw [List.take_append_drop] at hb
          rw [hb] at h
          simp only [Prod.mk.injEq] at h
          obtain ⟨hp, rfl⟩ := h
          refine .inr ⟨t, _, tl.take (vbiValue (init ++ [last])), ht, by rw [List.take_append_drop], hlen,
            by simp [hsz], ?_⟩
          split at hp
          · cases hp
          · rename_i e' he
            cases hp
            unfold Packet.readPacket at he
            split at he
            · cases he
            · rename_i e'' he'
              cases he
              exact bodyRead_blames he'
        · exfalso
          rw [Packet.read, FixedHeader.read_isVbi v hlen tl, hv] at h
          simp only at h
          rw [if_pos (by simp only [List.length_cons, List.length_append] at hsz ⊢; omega)] at h
          cases h
      · have hl := VarInt.readLoop_open .eof after 4 0 0 ho
        have hf : FixedHeader.read (v :: after) = match VarInt.remLen after with
            | .error e => .error e
            | .ok (n, k) => .ok (⟨t, f, n⟩, 1 + k) := by
          rw [FixedHeader.read, if_neg (by simp [← hr])]
          simp only [hv]
          rfl
        rw [VarInt.remLen, VarInt.remLenLoop_eq, hl] at hf
        by_cases h4 : 4 ≤ after.length
        · rw [if_pos h4] at hf
          rw [Packet.read, hf] at h
          cases h
          exact .inl ⟨.inr ⟨rfl, ⟨t, ht⟩, h4, ho⟩, rfl⟩
        · rw [if_neg h4] at hf
          rw [Packet.read, hf] at h
          cases h

/-- **C110**, the decoder that works on a stream. If it reports an error, then what the error says is true, of the fixed header
or of the packet it announces. Missing: the slips listed in `StreamSlip`. -/
theorem C110_streaming_partial (bs : Bytes) (e : DeErr) (h : Packet.asyncRead bs = .error (.de e)) :
    ∃ v after, bs = v :: after ∧
      (HeaderBlame v after e ∨
       ∃ k len body, FirstByteAllowed k v ∧ after = len ++ body ∧ IsVbi len ∧
         (Justified k (vbiValue len) body e ∨ StreamSlip k (vbiValue len) body e)) := by
  cases bs with
  | nil => cases h
  | cons v after =>
    refine ⟨v, after, rfl, ?_⟩
    cases hv : PacketType.fromFirstByte v with
    | error e' =>
      obtain ⟨rfl, hn⟩ := firstByte_error hv
      have hb : Packet.asyncRead (v :: after) = .error (.de (.unknownFixedHeader v)) := by
        simp [Packet.asyncRead, FixedHeader.asyncRead, Rd.bind_apply, aU8, Rd.lift, hv]
      rw [hb] at h
      cases h
      exact .inl (.inl ⟨rfl, hn⟩)
    | ok tf =>
      obtain ⟨t, f⟩ := tf
      have ht := firstByte_ok hv
      rcases VarInt.vbi_or_open 4 after with ⟨init, last, tl, e1, h1, h2, h3⟩ | ho
      · have hlen : IsVbi (init ++ [last]) := ⟨init, last, rfl, h1, h2, h3⟩
        have e1 : after = (init ++ [last]) ++ tl := by simp [e1]
        subst e1
        refine .inr ⟨t, _, tl, ht, rfl, hlen, ?_⟩
        rw [Packet.asyncRead, Rd.bind_apply, FixedHeader.asyncRead_isVbi v hlen tl, hv] at h
        exact asyncReadPacket_blames h
      · have hl := VarInt.readLoop_open .eof after 4 0 0 ho
        by_cases h4 : 4 ≤ after.length
        · rw [if_pos h4] at hl
          have hb : Packet.asyncRead (v :: after) = .error (.de .malformedPacket) := by
            simp [Packet.asyncRead, FixedHeader.asyncRead, Rd.bind_apply, aU8, Rd.lift, hv, VarInt.asyncRead, hl]
          rw [hb] at h
          cases h
          exact .inl (.inr ⟨rfl, ⟨t, ht⟩, h4, ho⟩)
        · rw [if_neg h4] at hl
          have hb : Packet.asyncRead (v :: after) = .error .eof := by
            simp [Packet.asyncRead, FixedHeader.asyncRead, Rd.bind_apply, aU8, Rd.lift, hv, VarInt.asyncRead, hl]
          rw [hb] at h
          cases h

/-- the errors are justified in the cases where they are most useful: an unknown property, one that does not belong to the
packet, one that is repeated, a string that is no UTF-8 and a packet that is too short -/
example :
    Packet.read [0xe0, 3, 0, 1, 99] = (.error (.err (.de (.unknownProperty 99))), []) ∧
    Packet.read [0xe0, 5, 0, 3, 18, 0, 0] = (.error (.err (.de (.unexpectedProperty .assignedClientIdentifier .disconnect))), []) ∧
    Packet.read [0xe0, 8, 0, 6, 31, 0, 0, 31, 0, 0, 7] = (.error (.err (.de (.duplicateProperty .reasonString))), [7]) ∧
    Packet.read [0xe0, 6, 0, 4, 31, 0, 1, 0xff] = (.error (.err (.de .utf8Error)), []) ∧
    Packet.read [0x30, 3, 0, 9, 1] = (.error (.err (.de (.insufficientData 1 9))), []) ∧
    Packet.read [0x35] = (.error (.insufficientBytes 1), [0x35]) ∧
    Packet.read [0x41, 0] = (.error (.err (.de (.unknownFixedHeader 0x41))), [0x41, 0]) := by
  refine ⟨rfl, rfl, rfl, rfl, rfl, rfl, rfl⟩

example :
    Packet.asyncRead [0xe0, 3, 0, 1, 99] = .error (.de (.unknownProperty 99)) ∧
    Packet.asyncRead [0xe0, 8, 0, 6, 31, 0, 0, 31, 0, 0, 7] = .error (.de (.duplicateProperty .reasonString)) ∧
    Packet.asyncRead [0xe0, 6, 0, 4, 31, 0, 1, 0xff] = .error (.de .utf8Error) ∧
    Packet.asyncRead [0x40, 1] = .error (.de (.insufficientData 1 2)) ∧
    Packet.asyncRead [0x41] = .error (.de (.unknownFixedHeader 0x41)) := by
  refine ⟨rfl, rfl, rfl, rfl, rfl⟩

/-- DISCONNECT with the reason code 1, AUTH and UNSUBACK with two reason strings, CONNECT whose will has a payload format
indicator, SUBACK with a reason string; and what is reported -/
def bufferSlips : List (PacketType × UInt8 × Bytes × DeErr) :=
  [(.disconnect, 0xe0, [1], .unknownProperty 1),
   (.auth, 0xf0, [0, 6, 31, 0, 0, 31, 0, 0], .duplicateProperty .sessionExpiryInterval),
   (.unsubAck, 0xb0, [0, 1, 6, 31, 0, 0, 31, 0, 0, 0], .duplicateProperty .subscriptionIdentifier),
   (.connect, 0x10, [0, 4, 77, 81, 84, 84, 5, 6, 0, 0, 0, 0, 0, 2, 1, 0, 0, 0, 0, 0], .duplicateProperty .payloadFormatIndicator),
   (.subAck, 0x90, [0, 1, 3, 31, 0, 0, 0], .unexpectedProperty .reasonString .subAck)]

/-- **C110** fails for the decoder that works on a buffer: a reason code is called a property, a repeated property is reported
under the name of another one, a property that occurs once is said to be repeated, and one that may occur is said not to. -/
theorem C110_buffered_violated : ∀ w ∈ bufferSlips,
    Packet.read (w.2.1 :: UInt8.ofNat w.2.2.1.length :: w.2.2.1) = (.error (.err (.de w.2.2.2)), []) ∧
    FirstByteAllowed w.1 w.2.1 ∧ ¬ Justified w.1 w.2.2.1.length w.2.2.1 w.2.2.2 := by
  simp only [bufferSlips, List.forall_mem_cons]
  refine ⟨⟨rfl, firstByte_ok (f := 0) rfl, ?_⟩, ⟨rfl, firstByte_ok (f := 0) rfl, fun h => ?_⟩, ⟨rfl, firstByte_ok (f := 0) rfl, fun h => ?_⟩, ⟨rfl, firstByte_ok (f := 0) rfl, fun h => ?_⟩,
    ⟨rfl, firstByte_ok (f := 0) rfl, ?_⟩, fun _ h => by cases h⟩
  · rintro ⟨items, ⟨before, len, good, more, h, hv, -⟩, -⟩
    have := VarInt.isVbi_pos hv
    have h := congrArg List.length h
    simp at h
    omega
  · exact absurd (justified_mem h) (by decide)
  · exact absurd (justified_mem h) (by decide)
  · exact absurd (justified_mem h) (by decide)
  · rintro ⟨-, s, items, hs, -, hc⟩
    simp only [sectionsOf, List.mem_singleton] at hs
    subst hs
    exact hc (by decide)

/-- PUBACK with a session expiry interval, PUBLISH with two topic aliases, CONNACK with two maximum packet sizes; and what is
reported -/
def streamSlips : List (PacketType × UInt8 × Bytes × DeErr) :=
  [(.disconnect, 0xe0, [1], .unknownProperty 1),
   (.subAck, 0x90, [0, 1, 3, 31, 0, 0, 0], .unexpectedProperty .reasonString .pubRel),
   (.pubAck, 0x40, [0, 1, 0, 5, 17, 0, 0, 0, 0], .unexpectedProperty .sessionExpiryInterval .pubRel),
   (.publish, 0x30, [0, 1, 97, 6, 35, 0, 1, 35, 0, 1], .duplicateProperty .messageExpiryInterval),
   (.connAck, 0x20, [0, 0, 10, 39, 0, 0, 1, 0, 39, 0, 0, 1, 0], .duplicateProperty .retainAvailable)]

/-- **C110** fails for the decoder that works on a stream: whatever the packet, a property that does not belong to it is said
not to belong to PUBREL; and two properties are reported under the name of another one when they are repeated. -/
theorem C110_streaming_violated : ∀ w ∈ streamSlips,
    Packet.asyncRead (w.2.1 :: UInt8.ofNat w.2.2.1.length :: w.2.2.1) = .error (.de w.2.2.2) ∧
    FirstByteAllowed w.1 w.2.1 ∧ ¬ Justified w.1 w.2.2.1.length w.2.2.1 w.2.2.2 := by
  simp only [streamSlips, List.forall_mem_cons]
  refine ⟨⟨rfl, firstByte_ok (f := 0) rfl, ?_⟩, ⟨rfl, firstByte_ok (f := 0) rfl, ?_⟩, ⟨rfl, firstByte_ok (f := 0) rfl, ?_⟩, ⟨rfl, firstByte_ok (f := 0) rfl, fun h => ?_⟩,
    ⟨rfl, firstByte_ok (f := 0) rfl, fun h => ?_⟩, fun _ h => by cases h⟩
  · rintro ⟨items, ⟨before, len, good, more, h, hv, -⟩, -⟩
    have := VarInt.isVbi_pos hv
    have h := congrArg List.length h
    simp at h
    omega
  · rintro ⟨h, -⟩; cases h
  · rintro ⟨h, -⟩; cases h
  · exact absurd (justified_mem h) (by decide)
  · exact absurd (justified_mem h) (by decide)

example : bufferSlips.length = 5 ∧ streamSlips.length = 5 := ⟨rfl, rfl⟩

end Mqrstt.Props
