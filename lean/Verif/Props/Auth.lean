import Verif.Proof.Auth
import Verif.Props.Progress
/-!
# C102: authentication data goes with an authentication method
-/

namespace Mqrstt.Props
open Mqrstt Mqrstt.Spec _root_.Spec

/-- **C102, sending.** Authentication data without a method never reaches the wire: the streaming writer writes the packet
without the data, and so does the buffered one for AUTH; for CONNECT and CONNACK it refuses. -/
theorem C102_never_sent (p : Packet) (h : DataAlone p) :
    p.asyncWrite = (withoutData p).asyncWrite ∧ ¬ DataAlone (withoutData p) ∧
      (p.type = .auth → p.write = (withoutData p).write) ∧ (p.type ≠ .auth → ∃ e, p.write = .error e) := by
  obtain ⟨P, hp, hd, hm⟩ := h
  cases p with
  | connect c =>
    cases hp
    refine ⟨?_, ?_, fun h => (by cases h), fun _ => ?_⟩
    · simp only [Packet.asyncWrite, withoutData, Packet.firstByte, Packet.lenAsyncWrite, Packet.bodyAsyncWrite,
        Packet.bodyWireLen, Connect.asyncWrite, Connect.wireLen, Connect.flags, noData_wireLen hm, noData_asyncWrite hm]
    · rintro ⟨P, h1, h2, -⟩
      cases h1
      exact h2 rfl
    · obtain ⟨e, he⟩ := alone_strict hd hm (es := connectEntries) (order := connectEntries) (by decide)
      simp only [Packet.write, Packet.bodyWrite, Connect.write, he]
      cases (Packet.connect c).lenWrite with
      | error y => exact ⟨y, rfl⟩
      | ok b => exact ⟨e, rfl⟩
  | connAck c =>
    cases hp
    refine ⟨?_, ?_, fun h => (by cases h), fun _ => ?_⟩
    · simp only [Packet.asyncWrite, withoutData, Packet.firstByte, Packet.lenAsyncWrite, Packet.bodyAsyncWrite,
        Packet.bodyWireLen, ConnAck.asyncWrite, ConnAck.wireLen, noData_wireLen hm, noData_asyncWrite hm]
    · rintro ⟨P, h1, h2, -⟩
      cases h1
      exact h2 rfl
    · obtain ⟨e, he⟩ := alone_strict hd hm (es := connAckEntries) (order := connAckEntries) (by decide)
      simp only [Packet.write, Packet.bodyWrite, ConnAck.write, he]
      cases (Packet.connAck c).lenWrite with
      | error y => exact ⟨y, rfl⟩
      | ok b =>
        cases c.reason.write with
        | error y => exact ⟨y, rfl⟩
        | ok b => exact ⟨e, rfl⟩
  | auth a =>
    cases hp
    refine ⟨?_, ?_, fun _ => ?_, fun h => absurd rfl h⟩
    · simp only [Packet.asyncWrite, withoutData, Packet.firstByte, Packet.lenAsyncWrite, Packet.bodyAsyncWrite,
        Packet.bodyWireLen, Auth.asyncWrite, Auth.wireLen, noData_wireLen hm, noData_asyncWrite hm]
    · rintro ⟨P, h1, h2, -⟩
      cases h1
      exact h2 rfl
    · simp only [Packet.write, withoutData, Packet.firstByte, Packet.lenWrite, Packet.bodyWrite,
        Packet.bodyWireLen, Auth.write, Auth.wireLen, noData_wireLen hm, noData_skip hm]
  | _ => cases hp

/-- authentication data `[7]`, no method -/
def loneData : Props := Props.empty.set .authenticationData [7]

example : DataAlone (.auth ⟨.continueAuthentication, loneData⟩) ∧
    (Packet.auth ⟨.continueAuthentication, loneData⟩).write = .ok [0xF0, 2, 0x18, 0] ∧
    (Packet.connAck ⟨false, .success, loneData⟩).write = .error .authDataWithoutAuthMethod ∧
    (Packet.connAck ⟨false, .success, loneData⟩).asyncWrite = .ok ([0x20, 3, 0, 0, 0], 5) :=
  ⟨⟨_, rfl, by simp [loneData, Props.set], rfl⟩, rfl, rfl, rfl⟩

/-- **C102, receiving (partial).** The buffered reader accepts no CONNECT with authentication data but without a method.
Missing: data that is empty, and every other reader, see `C102_received_violated`. -/
theorem C102_received_partial (b rest : Bytes) (c : Connect) (h : Packet.read b = (.ok (.connect c), rest)) (d : Bytes)
    (hd : c.props.val .authenticationData = some d) (hne : d ≠ []) : ¬ DataAlone (.connect c) := by
  rintro ⟨P, hp, -, hm⟩
  cases hp
  obtain ⟨b1, r1, h1⟩ := Packet.read_connect h
  obtain ⟨b2, r2, h2⟩ := Connect.read_props h1
  exact connect_checked h2 hd hne hm

/-- a CONNECT with authentication method `a` and data `[7]` is accepted; without the method it is not -/
example : (∃ c, Packet.read ([0x10, 22, 0, 4, 77, 81, 84, 84, 5, 2, 0, 60, 8, 21, 0, 1, 97, 22, 0, 1, 7, 0, 1, 97]) =
      (.ok (.connect c), []) ∧ c.props.val .authenticationData = some [7]) ∧
    ∀ c, (Packet.read ([0x10, 18, 0, 4, 77, 81, 84, 84, 5, 2, 0, 60, 4, 22, 0, 1, 7, 0, 1, 97])).1 ≠ .ok (.connect c) := by
  refine ⟨⟨_, rfl, rfl⟩, fun c h => ?_⟩
  have e : (Packet.read ([0x10, 18, 0, 4, 77, 81, 84, 84, 5, 2, 0, 60, 4, 22, 0, 1, 7, 0, 1, 97])).1 =
    .error (.err (.de .malformedPacketWithInfo)) := rfl
  rw [e] at h
  cases h

/-- a CONNACK and an AUTH with authentication data and no method -/
def loneConnAck : Bytes := [0x20, 7, 0, 0, 4, 22, 0, 1, 7]
def loneAuth : Bytes := [0xF0, 6, 0x18, 4, 22, 0, 1, 7]

/-- **C102 is false of the code** on the receiving side: both readers accept a CONNACK and an AUTH with authentication data
but without a method, the streaming reader also a CONNECT; with such a CONNACK `connect` succeeds on both networks. -/
theorem C102_received_violated :
    (∃ p, Packet.read loneConnAck = (.ok p, []) ∧ Packet.asyncRead loneConnAck = .ok (p, []) ∧ DataAlone p) ∧
    (∃ p, Packet.read loneAuth = (.ok p, []) ∧ Packet.asyncRead loneAuth = .ok (p, []) ∧ DataAlone p) ∧
    (∃ p, Packet.asyncRead [0x10, 18, 0, 4, 77, 81, 84, 84, 5, 2, 0, 60, 4, 22, 0, 1, 7, 0, 1, 97] = .ok (p, []) ∧ DataAlone p) ∧
    (∃ c, (tokioTrace fewIds 0 [.connect ⟨true, loneConnAck, false, fun _ => true, true, at' 1⟩]).any
      (fun | .connected _ _ => true | _ => false) = true ∧
      .read c ∈ tokioTrace fewIds 0 [.connect ⟨true, loneConnAck, false, fun _ => true, true, at' 1⟩] ∧ DataAlone c) ∧
    (∃ c, (smolTrace true fewIds 0 [.connect ⟨true, [loneConnAck], true, at' 1⟩]).any
      (fun | .connected _ _ => true | _ => false) = true ∧
      .read c ∈ smolTrace true fewIds 0 [.connect ⟨true, [loneConnAck], true, at' 1⟩] ∧ DataAlone c) := by
  have alone : DataAlone (.connAck ⟨false, .success, loneData⟩) := ⟨_, rfl, by simp [loneData, Props.set], rfl⟩
  refine ⟨⟨_, rfl, rfl, alone⟩, ⟨_, rfl, rfl, ⟨_, rfl, by simp [Props.set], rfl⟩⟩,
    ⟨_, rfl, ⟨_, rfl, by simp [Props.set], rfl⟩⟩, ?_, ?_⟩
  · exact ⟨.connAck ⟨false, .success, loneData⟩, rfl, .tail _ (.head _), alone⟩
  · exact ⟨.connAck ⟨false, .success, loneData⟩, rfl, .tail _ (.head _), alone⟩

end Mqrstt.Props
