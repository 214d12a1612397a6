import Verif.Proof.WireExact
/-!
# C59, C60: exactly which packets are written and read in MQTT's wire format

`C59_writers_conform_partial` and `C60_readers_complete_partial` leave out classes of packets. Here the classes are shown to
be exact: every packet in one of them is written wrongly, or not read.
-/

namespace Mqrstt.Props
open Mqrstt Spec Witness

/-- **C59 (partial, exact).** What the buffered writer makes of a well-formed packet that fits is that packet in MQTT's wire
format if and only if the packet has no empty authentication data and is not a SUBACK with a subscription identifier; for
the streaming writer, if and only if moreover it has no assigned client identifier. -/
theorem C59_exact_partial (p : Packet) (wf : WF p) (fits : p.bodyWireLen ≤ vbiMax) :
    ((∃ bs, p.write = .ok bs ∧ PacketSays p bs) ↔ ¬ EmptyAuthData p ∧ ¬ ForeignSubId p) ∧
    ((∃ bs n, p.asyncWrite = .ok (bs, n) ∧ PacketSays p bs) ↔
      ¬ EmptyAuthData p ∧ ¬ ForeignSubId p ∧ ¬ HasAssignedId p) := by
  refine ⟨⟨?_, ?_⟩, ⟨?_, ?_⟩⟩
  · rintro ⟨bs, hw, hs⟩
    exact ⟨fun h => (emptyAuth_write_fails wf fits h hw).2 (emptyAuth_read wf h hs), fun h => foreign_not_says h hs⟩
  · rintro ⟨x1, x2⟩
    have e := (BodyOk.of wf fits x1).write_frame
    exact ⟨_, e, (C59_writers_conform_partial p wf x1 x2).1 _ e⟩
  · rintro ⟨bs, n, hw, hs⟩
    have ha : ¬ HasAssignedId p := fun h => (assignedId_fails wf fits h hw).2 (assignedId_read wf h hs)
    exact ⟨fun h => (emptyAuth_asyncWrite_fails wf fits h ha hw).2 (emptyAuth_read wf h hs),
      fun h => foreign_not_says h hs, ha⟩
  · rintro ⟨x1, x2, x3⟩
    obtain ⟨n, e, -⟩ := (BodyOk.of wf fits x1).asyncWrite_frame x3
    exact ⟨_, n, e, (C59_writers_conform_partial p wf x1 x2).2 x3 _ _ e⟩

/-- on either side of the line -/
example : (∃ bs, connect1.write = .ok bs ∧ PacketSays connect1 bs) ∧
    (¬ ∃ bs, authEmpty.write = .ok bs ∧ PacketSays authEmpty bs) ∧
    ¬ ∃ bs n, connAckAssigned.asyncWrite = .ok (bs, n) ∧ PacketSays connAckAssigned bs :=
  ⟨(C59_exact_partial _ connect1_wf (by decide)).1.2 ⟨connect1_plain.1, fun h => h⟩,
    fun h => ((C59_exact_partial _ authEmpty_wf (by decide)).1.1 h).1
      ⟨emptyAuthProps, List.mem_singleton.2 rfl, rfl⟩,
    fun h => ((C59_exact_partial _ connAckAssigned_wf (by decide)).2.1 h).2.2
      ⟨assignedProps, List.mem_singleton.2 rfl, by decide⟩⟩

/-- **C60 (partial, exact).** A packet in MQTT's wire format is read as the packet it is by the buffered reader if and only
if it is not a SUBACK with a reason string, not one of the short forms of `Misread`, and not a CONNECT whose will has a
payload format indicator; by the streaming reader, if and only if it is not a SUBACK with a reason string, not one of the
short forms of `Misread`, and not a SUBSCRIBE to more than one topic. -/
theorem C60_exact_partial {p : Packet} {bs : Bytes} (h : PacketSays p bs) :
    (Packet.read bs = (.ok p, []) ↔ ¬ SubAckReason p ∧ ¬ Misread p bs ∧ ¬ WillWithFormat p) ∧
    (Packet.asyncRead bs = .ok (p, []) ↔ ¬ SubAckReason p ∧ ¬ Misread p bs ∧ ¬ ManyTopics p) := by
  have f1 := fun x => subAckReason_fails h x []
  have f2 := fun x : Misread p bs => C53_short_forms_violated.2 p bs (misread_short h x) x
  have f3 := fun x => manyTopics_asyncRead_fails h x []
  simp only [List.append_nil] at f1 f3
  refine ⟨⟨fun hr => ⟨fun x => ?_, fun x => ?_, fun x => ?_⟩, fun ⟨x1, x2, x3⟩ => ?_⟩,
    ⟨fun hr => ⟨fun x => ?_, fun x => ?_, fun x => f3 x hr⟩, fun ⟨x1, x2, x3⟩ => ?_⟩⟩
  · obtain ⟨e, h1⟩ := (f1 x).1
    rw [hr] at h1
    simp at h1
  · obtain ⟨e, h1⟩ := (f2 x).1 []
    rw [List.append_nil, hr] at h1
    simp at h1
  · cases p with
    | connect c => exact read_not_format hr x
    | _ => exact x
  · simpa using (C60_readers_complete_partial h x1 x2).1 x3 []
  · obtain ⟨e, h1⟩ := (f1 x).2
    rw [hr] at h1
    cases h1
  · obtain ⟨e, h1⟩ := (f2 x).2
    rw [hr] at h1
    cases h1
  · simpa using (C60_readers_complete_partial h x1 x2).2 x3 []

/-- one packet, read by one reader and not by the other: a SUBSCRIBE to two topics -/
example : ∃ bs, PacketSays subscribe2 bs ∧ Packet.read bs = (.ok subscribe2, []) ∧
    Packet.asyncRead bs ≠ .ok (subscribe2, []) := by
  have hs := (C59_writers_conform_partial subscribe2 subscribe2_wf (by
    rintro ⟨P, hP, h⟩
    obtain rfl := List.mem_singleton.1 hP
    cases h) (fun h => h)).1 _ rfl
  exact ⟨_, hs, (C60_exact_partial hs).1.2 ⟨fun h => h, fun h => h, fun h => h⟩,
    fun h => ((C60_exact_partial hs).2.1 h).2.2 (show (2 : Nat) ≠ 1 by decide)⟩

end Mqrstt.Props
