import Verif.Proof.Sizes
import Verif.Proof.Witness
/-!
# C03, C08–C11: packets are written and read back

`Packet.write`/`Packet.read` are the buffered codec (smol), `Packet.asyncWrite`/`Packet.asyncRead`
the streaming codec (tokio). `Spec.WF` says which packets are well-formed; the exceptions named in
`Spec/Exceptions.lean` are packets the code mishandles, each with a witness below.
-/

namespace Mqrstt.Props
open Mqrstt Spec Witness

/-! ## C03 -/

/-- **C03.** For every packet, well-formed or not: if the length the packet reports for its body
exceeds 268,435,455 both writers fail with an overflow error. Whatever a writer does write starts
with the packet's first byte and a variable byte integer whose value is that reported body length.
(That the reported length is the true one is C11.) -/
theorem C03_oversize_refused (p : Packet) :
    (vbiMax < p.bodyWireLen →
      p.write = .error (.variableIntegerOverflow p.bodyWireLen) ∧
      p.asyncWrite = .error (.variableIntegerOverflow p.bodyWireLen)) ∧
    (∀ bs, p.write = .ok bs → ∃ len body, bs = p.firstByte :: (len ++ body) ∧ IsVbi len ∧
      vbiValue len = p.bodyWireLen ∧ p.bodyWireLen ≤ vbiMax) ∧
    (∀ bs n, p.asyncWrite = .ok (bs, n) → ∃ len body, bs = p.firstByte :: (len ++ body) ∧ IsVbi len ∧
      vbiValue len = p.bodyWireLen ∧ p.bodyWireLen ≤ vbiMax) := by
  refine ⟨fun h => Packet.write_overflow p h, ?_, ?_⟩
  · intro bs h
    obtain ⟨a, b, h1, h2, rfl⟩ := Wr.append_eq_ok.1 h
    obtain ⟨c, d, h3, h4, rfl⟩ := Wr.append_eq_ok.1 h1
    cases h3
    rw [Packet.lenWrite_eq] at h4
    obtain ⟨v1, v2⟩ := VarInt.write_isVbi h4
    exact ⟨d, b, rfl, v1, v2, (VarInt.write_ok_iff _ _ h4).1⟩
  · intro bs n h
    obtain ⟨a, _, b, _, h1, h2, rfl, -⟩ := AWr.append_eq_ok.1 h
    obtain ⟨c, _, d, _, h3, h4, rfl, -⟩ := AWr.append_eq_ok.1 h1
    cases h3
    rw [Packet.lenAsyncWrite_eq] at h4
    have h4 := ((VarInt.asyncWrite_ok_iff _ _ _).1 h4).1
    obtain ⟨v1, v2⟩ := VarInt.write_isVbi h4
    exact ⟨d, b, rfl, v1, v2, (VarInt.write_ok_iff _ _ h4).1⟩

/-- a PUBLISH too large for MQTT exists -/
example : ∃ p : Packet, vbiMax < p.bodyWireLen := by
  have key : ∀ n, n = vbiMax → vbiMax < (Packet.publish ⟨false, .atMostOnce, false, ⟨[], by decide⟩,
      none, .empty, List.replicate n 0⟩).bodyWireLen := by
    intro n h
    simp only [Packet.bodyWireLen, Publish.wireLen, List.length_replicate, strWireLen]
    omega
  exact ⟨_, key _ rfl⟩

/-! ## C08 -/

/-- **C08 (partial).** Every well-formed packet outside three classes is written by the buffered
writer, unless its body is too long for MQTT, and reading what was written, followed by anything,
gives back the same packet and leaves exactly what followed. Missing: the three classes, for which
the claim is false, see `C08_buffered_round_trip_violated`. -/
theorem C08_buffered_round_trip_partial (p : Packet) (wf : WF p)
    (x1 : ¬ EmptyAuthData p) (x2 : ¬ WillWithFormat p) (x3 : ¬ ShortAck p) :
    (∃ bs, p.write = .ok bs ∧ ∀ rest, Packet.read (bs ++ rest) = (.ok p, rest)) ∨
    (vbiMax < p.bodyWireLen ∧ p.write = .error (.variableIntegerOverflow p.bodyWireLen)) := by
  rcases Nat.lt_or_ge vbiMax p.bodyWireLen with h | h
  · exact .inr ⟨h, (Packet.write_overflow p h).1⟩
  · have hb := BodyOk.of wf h x1
    exact .inl ⟨_, hb.write_frame, fun rest => hb.read_frame x2 x3 publishOrder_perm rest⟩

/-- the hypotheses hold of a CONNECT with will, credentials and properties -/
example : ∃ bs, connect1.write = .ok bs ∧ ∀ rest, Packet.read (bs ++ rest) = (.ok connect1, rest) :=
  (C08_buffered_round_trip_partial connect1 connect1_wf connect1_plain.1 connect1_plain.2.2.2.1
    connect1_plain.2.2.2.2.1).resolve_right fun h => absurd h.1 (by decide)

/-- **C08 is false of the code** for each of the three classes: (1) a PUBREC with a reason code and
no properties is written in the three-byte form which the reader rejects; (2) the reader rejects
every payload format indicator of a last will; (3) empty authentication data is lost. -/
theorem C08_buffered_round_trip_violated :
    (WF shortRec ∧ shortRec.write = .ok [0x50, 3, 0, 1, 0x10] ∧
      ∃ e, Packet.read [0x50, 3, 0, 1, 0x10] = (.error e, [])) ∧
    (WF connectFormat ∧ ∃ bs, connectFormat.write = .ok bs ∧ ∃ e, Packet.read bs = (.error e, [])) ∧
    (WF authEmpty ∧ ∃ bs, authEmpty.write = .ok bs ∧
      ∃ q, Packet.read bs = (.ok q, []) ∧ q ≠ authEmpty) := by
  refine ⟨⟨shortRec_wf, rfl, _, rfl⟩, ⟨connectFormat_wf, _, rfl, _, rfl⟩,
    ⟨authEmpty_wf, _, rfl, _, rfl, ?_⟩⟩
  intro h
  have := congrArg (fun p => match p with
    | Packet.auth a => (a.props.val .authenticationData).isSome | _ => false) h
  exact absurd this (by decide)

/-! ## C09 -/

/-- **C09 (partial).** Every well-formed packet outside four classes is written by the streaming
writer, unless its body is too long for MQTT, and reading what was written from a stream gives back
the same packet and leaves exactly what followed. Missing: the four classes, for which the claim is
false, see `C09_streaming_round_trip_violated`. -/
theorem C09_streaming_round_trip_partial (p : Packet) (wf : WF p)
    (x1 : ¬ EmptyAuthData p) (x2 : ¬ HasAssignedId p) (x3 : ¬ ShortAck p) (x4 : ¬ ManyTopics p) :
    (∃ bs n, p.asyncWrite = .ok (bs, n) ∧ ∀ rest, Packet.asyncRead (bs ++ rest) = .ok (p, rest)) ∨
    (vbiMax < p.bodyWireLen ∧ p.asyncWrite = .error (.variableIntegerOverflow p.bodyWireLen)) := by
  rcases Nat.lt_or_ge vbiMax p.bodyWireLen with h | h
  · exact .inr ⟨h, (Packet.write_overflow p h).2⟩
  · have hb := BodyOk.of wf h x1
    obtain ⟨n, e, -⟩ := hb.asyncWrite_frame x2
    exact .inl ⟨_, n, e, fun rest => hb.asyncRead_frame x3 x4 (.refl _) rest⟩

example : ∃ bs n, publish1.asyncWrite = .ok (bs, n) ∧
    ∀ rest, Packet.asyncRead (bs ++ rest) = .ok (publish1, rest) :=
  (C09_streaming_round_trip_partial publish1 publish1_wf publish1_plain.1 publish1_plain.2.1
    publish1_plain.2.2.2.2.1 publish1_plain.2.2.2.2.2).resolve_right fun h => absurd h.1 (by decide)

/-- **C09 is false of the code** for each of the four classes: (1) the three-byte form of PUBREC;
(2) a SUBSCRIBE to two topics is read as a SUBSCRIBE to the first, and the rest of the packet is
left in the stream; (3) the assigned client identifier is announced but not written; (4) empty
authentication data is lost. -/
theorem C09_streaming_round_trip_violated :
    (WF shortRec ∧ ∃ bs n, shortRec.asyncWrite = .ok (bs, n) ∧ ∃ e, Packet.asyncRead bs = .error e) ∧
    (WF subscribe2 ∧ ∃ bs n, subscribe2.asyncWrite = .ok (bs, n) ∧ ∃ rest,
      Packet.asyncRead bs = .ok (.subscribe ⟨1, .empty, [(strA, plainOptions)]⟩, rest) ∧
      rest = [0, 2, 195, 169, 1]) ∧
    (WF connAckAssigned ∧ ∃ bs n, connAckAssigned.asyncWrite = .ok (bs, n) ∧
      bs = [0x20, 7, 0, 0, 4] ∧ ∃ e, Packet.asyncRead bs = .error e) ∧
    (WF authEmpty ∧ ∃ bs n, authEmpty.asyncWrite = .ok (bs, n) ∧
      ∃ q, Packet.asyncRead bs = .ok (q, []) ∧ q ≠ authEmpty) := by
  refine ⟨⟨shortRec_wf, _, _, rfl, _, rfl⟩, ⟨subscribe2_wf, _, _, rfl, _, rfl, rfl⟩,
    ⟨connAckAssigned_wf, _, _, rfl, rfl, _, rfl⟩, ⟨authEmpty_wf, _, _, rfl, _, rfl, ?_⟩⟩
  intro h
  have := congrArg (fun p => match p with
    | Packet.auth a => (a.props.val .authenticationData).isSome | _ => false) h
  exact absurd this (by decide)

/-! ## C10 -/

/-- **C10 (partial).** What the streaming writer writes, the buffered reader reads back unchanged,
and the other way round. Missing: the classes excepted in C08 and C09. -/
theorem C10_codecs_interchangeable_partial (p : Packet) (wf : WF p) (x1 : ¬ EmptyAuthData p)
    (x3 : ¬ ShortAck p) :
    (¬ HasAssignedId p → ¬ WillWithFormat p → ∀ bs n, p.asyncWrite = .ok (bs, n) →
      ∀ rest, Packet.read (bs ++ rest) = (.ok p, rest)) ∧
    (¬ ManyTopics p → ∀ bs, p.write = .ok bs →
      ∀ rest, Packet.asyncRead (bs ++ rest) = .ok (p, rest)) := by
  rcases Nat.lt_or_ge vbiMax p.bodyWireLen with h | h
  · obtain ⟨h1, h2⟩ := Packet.write_overflow p h
    refine ⟨fun _ _ bs n e => ?_, fun _ bs e => ?_⟩
    · rw [h2] at e; cases e
    · rw [h1] at e; cases e
  · have hb := BodyOk.of wf h x1
    refine ⟨fun x2 x5 bs n e rest => ?_, fun x4 bs e rest => ?_⟩
    · obtain ⟨m, e', -⟩ := hb.asyncWrite_frame x2
      rw [e] at e'
      cases e'
      exact hb.read_frame x5 x3 (.refl _) rest
    · rw [hb.write_frame] at e
      cases e
      exact hb.asyncRead_frame x3 x4 publishOrder_perm rest

example : ∃ bs, publish1.write = .ok bs ∧
    ∀ rest, Packet.asyncRead (bs ++ rest) = .ok (publish1, rest) :=
  ⟨_, rfl, (C10_codecs_interchangeable_partial publish1 publish1_wf publish1_plain.1
    publish1_plain.2.2.2.2.1).2 publish1_plain.2.2.2.2.2 _ rfl⟩

/-- **C10 is false of the code** in general: what the streaming writer makes of a CONNACK with an
assigned client identifier the buffered reader never completes, and the streaming reader reads only
the first topic of what the buffered writer makes of a SUBSCRIBE to two topics. -/
theorem C10_codecs_interchangeable_violated :
    (WF connAckAssigned ∧ ∃ bs n, connAckAssigned.asyncWrite = .ok (bs, n) ∧
      Packet.read bs = (.error (.insufficientBytes 4), bs)) ∧
    (WF subscribe2 ∧ ∃ bs, subscribe2.write = .ok bs ∧ ∃ rest, rest ≠ [] ∧
      Packet.asyncRead bs = .ok (.subscribe ⟨1, .empty, [(strA, plainOptions)]⟩, rest)) :=
  ⟨⟨connAckAssigned_wf, _, _, rfl, rfl⟩, ⟨subscribe2_wf, _, rfl, _, List.cons_ne_nil _ _, rfl⟩⟩

/-! ## C11 -/

/-- the first bytes are a variable byte integer giving the number of bytes after it -/
def LengthPrefixed (bs : Bytes) : Prop :=
  ∃ len body, bs = len ++ body ∧ IsVbi len ∧ vbiValue len = body.length

/-- **C11 (partial).** For every packet, well-formed or not, and everything a writer produces for
it: after the first byte comes a true length prefix, and so does every property section of every
packet type (in whatever order the properties are written); the count returned by the streaming
writer is the number of bytes written. Missing: CONNECT and CONNACK with empty authentication data
(buffered writer), CONNACK with an assigned client identifier (streaming writer), and the count for
a packet with a server reference; for these the claim is false, see
`C11_announced_sizes_violated`. -/
theorem C11_announced_sizes_partial (p : Packet) :
    (¬ EmptyAuthData p → ∀ bs, p.write = .ok bs →
      ∃ rest, bs = p.firstByte :: rest ∧ LengthPrefixed rest) ∧
    (¬ HasAssignedId p → ∀ bs n, p.asyncWrite = .ok (bs, n) →
      (∃ rest, bs = p.firstByte :: rest ∧ LengthPrefixed rest) ∧
      (¬ HasServerRef p → n = bs.length)) ∧
    (∀ (P : Props) (es order : List Entry) (mode : Props.AuthMode), order.Perm es →
      P.val .authenticationData ≠ some [] → ∀ bs, P.syncWrite es order mode = .ok bs →
      LengthPrefixed bs) ∧
    (∀ (P : Props) (es : List Entry), P.val .assignedClientIdentifier = none →
      ∀ bs n, P.asyncWrite es = .ok (bs, n) → LengthPrefixed bs) := by
  refine ⟨?_, ?_, ?_, ?_⟩
  · intro hx bs h
    obtain ⟨a, b, h1, h2, rfl⟩ := Wr.append_eq_ok.1 h
    obtain ⟨c, d, h3, h4, rfl⟩ := Wr.append_eq_ok.1 h1
    cases h3
    rw [Packet.lenWrite_eq] at h4
    obtain ⟨v1, v2⟩ := VarInt.write_isVbi h4
    exact ⟨d ++ b, rfl, d, b, rfl, v1, by rw [v2, Packet.bodyWrite_length hx h2]⟩
  · intro hx bs n h
    obtain ⟨a, na, b, nb, h1, h2, rfl, rfl⟩ := AWr.append_eq_ok.1 h
    obtain ⟨c, nc, d, nd, h3, h4, rfl, rfl⟩ := AWr.append_eq_ok.1 h1
    cases h3
    rw [Packet.lenAsyncWrite_eq] at h4
    have h5 := (VarInt.asyncWrite_ok_iff _ _ _).1 h4
    obtain ⟨v1, v2⟩ := VarInt.write_isVbi h5.1
    obtain ⟨h6, h7⟩ := Packet.bodyAsyncWrite_length hx h2
    refine ⟨⟨d ++ b, rfl, d, b, rfl, v1, by rw [v2, h6]⟩, fun hs => ?_⟩
    rw [h7 hs, h5.2]
    simp
    omega
  · intro P es order mode ho ha bs h
    obtain ⟨len, items, rfl, hl, hi⟩ := Props.syncWrite_sizes ho ha h
    obtain ⟨v1, v2⟩ := VarInt.write_isVbi hl
    exact ⟨len, items, rfl, v1, by rw [v2, hi]⟩
  · intro P es hc bs n h
    obtain ⟨len, items, rfl, hl, hi, -⟩ := Props.asyncWrite_sizes hc h
    obtain ⟨v1, v2⟩ := VarInt.write_isVbi hl
    exact ⟨len, items, rfl, v1, by rw [v2, hi]⟩

/-- **C11.** The size a packet claims to have is the number of bytes written for it, by either writer. -/
theorem C11_wire_len_partial (p : Packet) :
    (¬ EmptyAuthData p → ∀ bs, p.write = .ok bs → p.wireLen = bs.length) ∧
    (¬ HasAssignedId p → ∀ bs n, p.asyncWrite = .ok (bs, n) → p.wireLen = bs.length) := by
  rw [Packet.wireLen_eq]
  constructor
  · intro hx bs h
    obtain ⟨a, b, h1, h2, rfl⟩ := Wr.append_eq_ok.1 h
    obtain ⟨c, d, h3, h4, rfl⟩ := Wr.append_eq_ok.1 h1
    cases h3
    rw [Packet.lenWrite_eq] at h4
    have hv := (VarInt.write_ok_iff _ _ h4).2.1
    have hl := Packet.bodyWrite_length hx h2
    simp
    omega
  · intro hx bs n h
    obtain ⟨a, na, b, nb, h1, h2, rfl, rfl⟩ := AWr.append_eq_ok.1 h
    obtain ⟨c, nc, d, nd, h3, h4, rfl, rfl⟩ := AWr.append_eq_ok.1 h1
    cases h3
    rw [Packet.lenAsyncWrite_eq] at h4
    have h5 := (VarInt.asyncWrite_ok_iff _ _ _).1 h4
    obtain ⟨h6, h7⟩ := Packet.bodyAsyncWrite_length hx h2
    have hv := (VarInt.write_ok_iff _ _ h5.1).2.1
    simp
    omega

/-- something is written for a packet meeting all hypotheses -/
example : (¬ EmptyAuthData connect1 ∧ ∃ bs, connect1.write = .ok bs) ∧
    (¬ HasAssignedId connect1 ∧ ¬ HasServerRef connect1 ∧ ∃ bs n, connect1.asyncWrite = .ok (bs, n)) :=
  ⟨⟨connect1_plain.1, _, rfl⟩, connect1_plain.2.1, connect1_plain.2.2.1, _, _, rfl⟩

/-- **C11 is false of the code** for: (1) CONNACK with empty authentication data (buffered): three
bytes more than announced; (2) CONNACK with an assigned client identifier (streaming): four bytes
fewer than announced; (3) DISCONNECT with a server reference (streaming): eight bytes are written, five
reported. -/
theorem C11_announced_sizes_violated :
    (WF connAckEmptyAuth ∧ ∃ body, connAckEmptyAuth.write = .ok (0x20 :: 7 :: body) ∧
      body.length = 10) ∧
    (WF connAckAssigned ∧ ∃ body n, connAckAssigned.asyncWrite = .ok (0x20 :: 7 :: body, n) ∧
      body.length = 3) ∧
    (WF disconnectRef ∧ ∃ bs, disconnectRef.asyncWrite = .ok (bs, 5) ∧ bs.length = 8) :=
  ⟨⟨connAckEmptyAuth_wf, _, rfl, rfl⟩, ⟨connAckAssigned_wf, _, _, rfl, rfl⟩,
    ⟨disconnectRef_wf, _, rfl, rfl⟩⟩

end Mqrstt.Props
