import Verif.Proof.WireRead
import Verif.Proof.Unambiguous
import Verif.Props.Codec
/-!
# C59, C60: the wire format

`PacketSays p bs` (Spec/Wire.lean) is MQTT's own description of the bytes of a packet.
-/

namespace Mqrstt.Props
open Mqrstt Spec Witness

/-! ## C59 -/

/-- **C59 (partial).** Whatever either writer writes for a well-formed packet is that packet in MQTT's wire format.
Missing: empty authentication data, which both writers leave out, the assigned client identifier in the streaming
writer, and the subscription identifier of SUBACK, which MQTT does not know. -/
theorem C59_writers_conform_partial (p : Packet) (wf : WF p) (x1 : ¬ EmptyAuthData p) (x2 : ¬ ForeignSubId p) :
    (∀ bs, p.write = .ok bs → PacketSays p bs) ∧
    (¬ HasAssignedId p → ∀ bs n, p.asyncWrite = .ok (bs, n) → PacketSays p bs) := by
  rcases Nat.lt_or_ge vbiMax p.bodyWireLen with h | h
  · obtain ⟨h1, h2⟩ := Packet.write_overflow p h
    refine ⟨fun bs e => ?_, fun _ bs n e => ?_⟩
    · rw [h1] at e; cases e
    · rw [h2] at e; cases e
  · have hb := BodyOk.of wf h x1
    refine ⟨fun bs e => ?_, fun x3 bs n e => ?_⟩
    · rw [hb.write_frame] at e
      cases e
      exact hb.frame_says x2 publishOrder_perm
    · obtain ⟨m, e', -⟩ := hb.asyncWrite_frame x3
      rw [e] at e'
      cases e'
      exact hb.frame_says x2 (.refl _)

/-- a CONNECT with will, credentials and authentication data -/
example : ∃ bs, connect1.write = .ok bs ∧ PacketSays connect1 bs :=
  ⟨_, rfl, (C59_writers_conform_partial connect1 connect1_wf connect1_plain.1 (fun h => h)).1 _ rfl⟩

/-- a PUBLISH with properties -/
example : ∃ bs n, publish1.asyncWrite = .ok (bs, n) ∧ PacketSays publish1 bs :=
  ⟨_, _, rfl, (C59_writers_conform_partial publish1 publish1_wf publish1_plain.1 (fun h => h)).2 publish1_plain.2.1 _ _ rfl⟩

/-! ## C60 -/

/-- **C60 (partial).** Every packet in MQTT's wire format - properties in any order, any of the short forms, followed by
anything - is read by both readers as the packet it is, and what follows is left. Missing: SUBACK with a reason string, the
short forms of `Misread`, a last will with a payload format indicator in the buffered reader, and SUBSCRIBE with a number of
topics other than one in the streaming reader. -/
theorem C60_readers_complete_partial {p : Packet} {bs : Bytes} (h : PacketSays p bs) (x1 : ¬ SubAckReason p)
    (x2 : ¬ Misread p bs) :
    (¬ WillWithFormat p → ∀ rest, Packet.read (bs ++ rest) = (.ok p, rest)) ∧
    (¬ ManyTopics p → ∀ rest, Packet.asyncRead (bs ++ rest) = .ok (p, rest)) :=
  packet_reads h x1 x2

/-- MQTT's wire format is unambiguous: no bytes are two packets, nor one packet and the beginning of another. -/
theorem C60_unambiguous {p q : Packet} {bs cs rest more : Bytes} (hp : PacketSays p bs) (hq : PacketSays q cs)
    (h : bs ++ rest = cs ++ more) : p = q ∧ bs = cs ∧ rest = more := packet_det hp hq h

/-- the bytes the writer makes of a PUBLISH with properties -/
example : ∃ bs, PacketSays publish1 bs ∧ ¬ SubAckReason publish1 ∧ ¬ Misread publish1 bs :=
  ⟨_, (C59_writers_conform_partial publish1 publish1_wf publish1_plain.1 (fun h => h)).1 _ rfl, fun h => h, fun h => h⟩

/-- a DISCONNECT with its properties in an order the library never writes: user property before reason string -/
example : PacketSays (.disconnect ⟨.serverBusy, { Props.empty.set .reasonString Str.empty with users := [(Str.empty, Str.empty)] }⟩)
    [0xE0, 10, 0x89, 8, 0x26, 0, 0, 0, 0, 0x1f, 0, 0] := by
  have one : ∀ n : UInt8, n.toNat < 128 → LenBytes n.toNat [n] := by
    intro n hn
    refine ⟨⟨[], n, rfl, by decide, by simp, by unfold more; omega⟩, by simp [vbiValue]; omega, fun other h _ => VarInt.isVbi_pos h⟩
  refine ⟨0xE0, [10], _, rfl, rfl, one 10 (by decide), .inr (.inr ⟨by decide, _, rfl, ?_⟩)⟩
  refine ⟨[8], _, [.user Str.empty Str.empty, .value .reasonString Str.empty], rfl, one 8 (by decide), ?_, ?_, ?_, ?_, ?_, ?_⟩
  · exact .cons (bs := [0x26, 0, 0, 0, 0]) ⟨[0, 0], [0, 0], rfl, ⟨0, 0, rfl, rfl⟩, ⟨0, 0, rfl, rfl⟩⟩
      (.cons (bs := [0x1f, 0, 0]) ⟨by decide, [0, 0], rfl, ⟨0, 0, rfl, rfl⟩⟩ .nil)
  · simp [WireItem.type, carriers]
  · simp [AtMostOnce, WireItem.type]
  · refine ⟨fun p hp v => ?_, rfl, rfl⟩
    by_cases h : p = .reasonString
    · subst h
      simp [Props.set, eq_comm]
    · simp [Props.set, h, Props.empty]
  · intro p hp
    cases p <;> first | rfl | cases hp
  · simp [Props.set, Props.empty]

/-- **C59 is false of the code** for the two classes: AUTH with empty authentication data in both writers, CONNACK with an
assigned client identifier in the streaming writer. What is written is not that packet in MQTT's format. -/
theorem C59_writers_conform_violated :
    (WF authEmpty ∧ ∃ bs, authEmpty.write = .ok bs ∧ ¬ PacketSays authEmpty bs) ∧
    (WF connAckAssigned ∧ ∃ bs n, connAckAssigned.asyncWrite = .ok (bs, n) ∧ ¬ PacketSays connAckAssigned bs) := by
  refine ⟨⟨authEmpty_wf, _, rfl, fun h => ?_⟩, ⟨connAckAssigned_wf, _, _, rfl, fun h => ?_⟩⟩
  · have := (C60_readers_complete_partial h (fun h => h) (fun h => absurd (show _ = 2 from h) (by decide))).1 (fun h => h) []
    rw [List.append_nil] at this
    have := congrArg (fun p => match p.1 with
      | .ok (Packet.auth a) => (a.props.val .authenticationData).isSome | _ => false) this
    exact absurd this (by decide)
  · have := (C60_readers_complete_partial h (fun h => h) (fun h => h)).1 (fun h => h) []
    rw [List.append_nil] at this
    have := congrArg (fun p => match p.1 with | .ok _ => true | _ => false) this
    exact absurd this (by decide)

/-- **C60 is false of the code**: a PUBREC in the form without property length is refused by both readers, a CONNECT whose
will has a payload format indicator by the buffered reader, and of a SUBSCRIBE to two topics the streaming reader reads the
first. (SUBACK with a reason string: `C54_suback_violated`.) -/
theorem C60_readers_complete_violated :
    (∃ bs, PacketSays shortRec bs ∧ (∃ e, Packet.read bs = (.error e, [])) ∧ ∃ e, Packet.asyncRead bs = .error e) ∧
    (∃ bs, PacketSays connectFormat bs ∧ ∃ e, Packet.read bs = (.error e, [])) ∧
    (∃ bs, PacketSays subscribe2 bs ∧
      Packet.asyncRead bs = .ok (.subscribe ⟨1, .empty, [(strA, plainOptions)]⟩, [0, 2, 195, 169, 1])) := by
  refine ⟨⟨_, (C59_writers_conform_partial shortRec shortRec_wf ?_ (fun h => h)).1 _ rfl, ⟨_, rfl⟩, ⟨_, rfl⟩⟩,
    ⟨_, (C59_writers_conform_partial connectFormat connectFormat_wf ?_ (fun h => h)).1 _ rfl, _, rfl⟩,
    ⟨_, (C59_writers_conform_partial subscribe2 subscribe2_wf ?_ (fun h => h)).1 _ rfl, rfl⟩⟩
  · rintro ⟨P, hP, h⟩
    simp [shortRec, propSets] at hP
    subst hP
    cases h
  · rintro ⟨P, hP, h⟩
    simp [connectFormat, propSets] at hP
    rcases hP with rfl | rfl <;> cases h
  · rintro ⟨P, hP, h⟩
    simp [subscribe2, propSets] at hP
    subst hP
    cases h

end Mqrstt.Props
