import Verif.Proof.ExactSize
import Verif.Props.Codec
/-!
# C08–C11: exactly which packets survive a round trip and announce their true size

`C08_buffered_round_trip_partial` and its neighbours say that well-formed packets outside certain
classes come back as they were. Here the classes are shown to be exact: of the well-formed packets
that fit into an MQTT packet, those outside the classes come back, and *every* packet in one of them
does not.
-/

namespace Mqrstt.Props
open Mqrstt Spec Witness

/-- **C08 (partial, exact).** A well-formed packet that fits is written and read back as it was by
the buffered codec if and only if it carries no empty authentication data, no last will with a
payload format indicator, and is not a PUBREC or PUBCOMP with a reason other than success and no
properties. -/
theorem C08_exact_partial (p : Packet) (wf : WF p) (fits : p.bodyWireLen ≤ vbiMax) :
    (∃ bs, p.write = .ok bs ∧ Packet.read bs = (.ok p, [])) ↔
      ¬ EmptyAuthData p ∧ ¬ WillWithFormat p ∧ ¬ ShortAck p := by
  constructor
  · rintro ⟨bs, hw, hr⟩
    refine ⟨fun h => (emptyAuth_write_fails wf fits h hw).1 hr, fun h => ?_,
      fun h => ((shortAck_fails wf h).1 bs hw).1 hr⟩
    cases p with
    | connect c => exact read_not_format hr h
    | _ => exact h
  · rintro ⟨x1, x2, x3⟩
    rcases C08_buffered_round_trip_partial p wf x1 x2 x3 with ⟨bs, hw, hr⟩ | h
    · exact ⟨bs, hw, by simpa using hr []⟩
    · exact absurd h.1 (Nat.not_lt.2 fits)

/-- a packet on either side of the line: `connect1` comes back, `connectFormat` does not -/
example : (∃ bs, connect1.write = .ok bs ∧ Packet.read bs = (.ok connect1, [])) ∧
    ¬ ∃ bs, connectFormat.write = .ok bs ∧ Packet.read bs = (.ok connectFormat, []) :=
  ⟨(C08_exact_partial _ connect1_wf (by decide)).2
      ⟨connect1_plain.1, connect1_plain.2.2.2.1, connect1_plain.2.2.2.2.1⟩,
    fun h => ((C08_exact_partial _ connectFormat_wf (by decide)).1 h).2.1 ⟨_, rfl, by decide⟩⟩

/-- **C09 (partial, exact).** A well-formed packet that fits is written and read back as it was by
the streaming codec if and only if it carries no empty authentication data and no assigned client
identifier, is not a PUBREC or PUBCOMP with a reason other than success and no properties, and is
not a SUBSCRIBE to more than one topic. -/
theorem C09_exact_partial (p : Packet) (wf : WF p) (fits : p.bodyWireLen ≤ vbiMax) :
    (∃ bs n, p.asyncWrite = .ok (bs, n) ∧ Packet.asyncRead bs = .ok (p, [])) ↔
      ¬ EmptyAuthData p ∧ ¬ HasAssignedId p ∧ ¬ ShortAck p ∧ ¬ ManyTopics p := by
  constructor
  · rintro ⟨bs, n, hw, hr⟩
    have ha : ¬ HasAssignedId p := fun h => (assignedId_fails wf fits h hw).2 hr
    exact ⟨fun h => (emptyAuth_asyncWrite_fails wf fits h ha hw).2 hr, ha,
      fun h => ((shortAck_fails wf h).2 bs n hw).2 hr,
      fun h => (manyTopics_fails wf fits h).2 bs n hw hr⟩
  · rintro ⟨x1, x2, x3, x4⟩
    rcases C09_streaming_round_trip_partial p wf x1 x2 x3 x4 with ⟨bs, n, hw, hr⟩ | h
    · exact ⟨bs, n, hw, by simpa using hr []⟩
    · exact absurd h.1 (Nat.not_lt.2 fits)

example : (∃ bs n, publish1.asyncWrite = .ok (bs, n) ∧ Packet.asyncRead bs = .ok (publish1, [])) ∧
    ¬ ∃ bs n, subscribe2.asyncWrite = .ok (bs, n) ∧ Packet.asyncRead bs = .ok (subscribe2, []) :=
  ⟨(C09_exact_partial _ publish1_wf (by decide)).2
      ⟨publish1_plain.1, publish1_plain.2.1, publish1_plain.2.2.2.2.1, publish1_plain.2.2.2.2.2⟩,
    fun h => ((C09_exact_partial _ subscribe2_wf (by decide)).1 h).2.2.2
      (show (2 : Nat) ≠ 1 by decide)⟩

/-- **C10 (partial, exact).** Of the well-formed packets that fit: what the streaming writer makes
of a packet is read as that packet by the buffered reader if and only if the packet is in none of
the four classes named, and what the buffered writer makes of it is read as it by the streaming
reader if and only if it is in none of the three classes named. -/
theorem C10_exact_partial (p : Packet) (wf : WF p) (fits : p.bodyWireLen ≤ vbiMax) :
    ((∃ bs n, p.asyncWrite = .ok (bs, n) ∧ Packet.read bs = (.ok p, [])) ↔
      ¬ EmptyAuthData p ∧ ¬ HasAssignedId p ∧ ¬ ShortAck p ∧ ¬ WillWithFormat p) ∧
    ((∃ bs, p.write = .ok bs ∧ Packet.asyncRead bs = .ok (p, [])) ↔
      ¬ EmptyAuthData p ∧ ¬ ShortAck p ∧ ¬ ManyTopics p) := by
  refine ⟨⟨?_, ?_⟩, ⟨?_, ?_⟩⟩
  · rintro ⟨bs, n, hw, hr⟩
    have ha : ¬ HasAssignedId p := fun h => (assignedId_fails wf fits h hw).1 hr
    refine ⟨fun h => (emptyAuth_asyncWrite_fails wf fits h ha hw).1 hr, ha,
      fun h => ((shortAck_fails wf h).2 bs n hw).1 hr, fun h => ?_⟩
    cases p with
    | connect c => exact read_not_format hr h
    | _ => exact h
  · rintro ⟨x1, x2, x3, x4⟩
    obtain ⟨n, e, -⟩ := (BodyOk.of wf fits x1).asyncWrite_frame x2
    exact ⟨_, n, e, by
      simpa using (C10_codecs_interchangeable_partial p wf x1 x3).1 x2 x4 _ _ e []⟩
  · rintro ⟨bs, hw, hr⟩
    exact ⟨fun h => (emptyAuth_write_fails wf fits h hw).2 hr,
      fun h => ((shortAck_fails wf h).1 bs hw).2 hr, fun h => (manyTopics_fails wf fits h).1 bs hw hr⟩
  · rintro ⟨x1, x3, x4⟩
    have e := (BodyOk.of wf fits x1).write_frame
    exact ⟨_, e, by simpa using (C10_codecs_interchangeable_partial p wf x1 x3).2 x4 _ e []⟩

example : (∃ bs, publish1.write = .ok bs ∧ Packet.asyncRead bs = .ok (publish1, [])) ∧
    (¬ ∃ bs n, connAckAssigned.asyncWrite = .ok (bs, n) ∧ Packet.read bs = (.ok connAckAssigned, [])) ∧
    ¬ ∃ bs, authEmpty.write = .ok bs ∧ Packet.asyncRead bs = .ok (authEmpty, []) :=
  ⟨(C10_exact_partial _ publish1_wf (by decide)).2.2
      ⟨publish1_plain.1, publish1_plain.2.2.2.2.1, publish1_plain.2.2.2.2.2⟩,
    fun h => ((C10_exact_partial _ connAckAssigned_wf (by decide)).1.1 h).2.1 
      ⟨assignedProps, List.mem_singleton.2 rfl, by decide⟩,
    fun h => ((C10_exact_partial _ authEmpty_wf (by decide)).2.1 h).1 
      ⟨emptyAuthProps, List.mem_singleton.2 rfl, rfl⟩⟩

/-- **C11 (partial, exact).** For a well-formed packet that fits: the size it claims is the number
of bytes the buffered writer produces if and only if it is not a CONNECT or CONNACK with empty
authentication data (AUTH is the only other packet that can have authentication data, and there the
size is right); it is the number of bytes the streaming writer produces if and only if it has no
assigned client identifier; and the count the streaming writer returns is the number of bytes
written if and only if it has no server reference. -/
theorem C11_exact_partial (p : Packet) (wf : WF p) (fits : p.bodyWireLen ≤ vbiMax) :
    (∀ bs, p.write = .ok bs →
      (p.wireLen = bs.length ↔ ¬ (EmptyAuthData p ∧ ∀ a, p ≠ .auth a))) ∧
    (∀ bs n, p.asyncWrite = .ok (bs, n) →
      (p.wireLen = bs.length ↔ ¬ HasAssignedId p) ∧ (n = bs.length ↔ ¬ HasServerRef p)) :=
  ⟨fun _ hw => write_size_iff wf fits hw,
    fun _ _ hw => ⟨asyncWrite_size_iff wf fits hw, count_iff wf hw⟩⟩

example : (∃ bs, connAckEmptyAuth.write = .ok bs ∧ connAckEmptyAuth.wireLen ≠ bs.length) ∧
    (∃ bs, authEmpty.write = .ok bs ∧ authEmpty.wireLen = bs.length) ∧
    (∃ bs n, disconnectRef.asyncWrite = .ok (bs, n) ∧ disconnectRef.wireLen = bs.length ∧
      n ≠ bs.length) :=
  ⟨⟨_, rfl, fun h => ((C11_exact_partial _ connAckEmptyAuth_wf (by decide)).1 _ rfl).1 h
      ⟨⟨emptyAuthProps, List.mem_singleton.2 rfl, rfl⟩, fun _ h => by cases h⟩⟩,
    ⟨_, rfl, ((C11_exact_partial _ authEmpty_wf (by decide)).1 _ rfl).2 fun h => h.2 _ rfl⟩,
    ⟨_, _, rfl, rfl, fun h => (((C11_exact_partial _ disconnectRef_wf (by decide)).2 _ _ rfl).2.1 h)
      ⟨refProps, List.mem_singleton.2 rfl, by decide⟩⟩⟩

end Mqrstt.Props
