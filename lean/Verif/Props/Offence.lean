import Verif.Proof.Offence
import Verif.Props.Errors
import Verif.Props.Answers
/-!
# Packets the client did not ask for, on a connection (C32, C33)

What `Props/Errors.lean` says of the session, seen from outside: the turn of `run` that reads such a packet.
-/

namespace Mqrstt.Props
open Mqrstt Mqrstt.Spec _root_.Spec

/-- **C33, on a connection.** In every state of either network: the turn of `run` that reads such a packet ends `run`, and with
it the connection, with the error that names its type; the handler is not called, nothing is written, and the session, the queue
and the identifiers are what they were. -/
theorem C33_ends_connection (p : Packet) (hp : FromClientOnly p) :
    (∀ (s s' : Tokio) b lost io T obs, s.step (.turn b lost io T) = some (s', obs) → .read p ∈ obs →
      obs = [.read p, .ended (.error (.handler (.unexpectedPacket p.type)))] ∧ s'.network = none ∧ s'.run = none ∧ s'.sys = s.sys) ∧
    (∀ (s s' : Smol) b io T obs, s.step (.turn b io T) = some (s', obs) → .read p ∈ obs →
      obs = [.read p, .ended (.error (.handler (.unexpectedPacket p.type)))] ∧ s'.network = none ∧ s'.running = false ∧
        s'.outgoing = [] ∧ s'.sys = s.sys) := by
  have h1 : p ≠ .pingResp := by
    rintro rfl
    simp [FromClientOnly, Packet.type] at hp
  have h2 : ∀ d, p ≠ .disconnect d := by
    rintro d rfl
    simp [FromClientOnly, Packet.type] at hp
  exact ⟨fun s s' b lost io T obs h hr => Tokio.turn_refused h hr h1 h2 (C33_unexpected s.sys (Tokio.turn_alive h) p hp),
    fun s s' b io T obs h hr => Smol.turn_refused h hr h1 h2 (C33_unexpected s.sys (Smol.turn_alive h) p hp)⟩

/-- PINGREQ from the server -/
example :
    (∃ s', (tokio resumeOptions 0 (tokioUp ++ [.arrive [0xC0, 0]])).step (.turn .read 0 true (at' 2)) =
      some (s', [.read .pingReq, .ended (.error (.handler (.unexpectedPacket .pingReq)))])) ∧
    (∃ s', (smol true resumeOptions 0 smolUp).step (.turn (.read [0xC0, 0]) true (at' 2)) =
      some (s', [.read .pingReq, .ended (.error (.handler (.unexpectedPacket .pingReq)))])) := ⟨⟨_, rfl⟩, ⟨_, rfl⟩⟩

/-- **C32, on a connection**, the part that holds: `ops` is what clients and network have done with the session so far (by
`C39_session_in_tokio` and `C39_session_in_smol` there always are such). The turn of `run` that reads an unsolicited
acknowledgement ends `run` with the error that names identifier and type; the handler is not called, nothing is written, and the
session, the queue and the identifiers are what they were. Missing: as in `C32_unsolicited_partial`. -/
theorem C32_ends_connection_partial (cfg : Config) (ops : List Op) (p : Packet) (id : UInt16) (hid : ackId p = some id)
    (hun : ¬ Solicited (ledger cfg ops) p)
    (hpub : p.type = .pubAck ∨ p.type = .pubRec →
      (1 ≤ id.toNat ∧ id.toNat ≤ cfg.recvMax.toNat) ∧ ∀ q ∈ (ledger cfg ops).unacked, q.pkid ≠ some id) :
    (∀ (s s' : Tokio) b lost io T obs, s.sys = client cfg ops → s.step (.turn b lost io T) = some (s', obs) → .read p ∈ obs →
      obs = [.read p, .ended (.error (.handler (.unsolicited id p.type)))] ∧ s'.network = none ∧ s'.run = none ∧ s'.sys = s.sys) ∧
    (∀ (s s' : Smol) b io T obs, s.sys = client cfg ops → s.step (.turn b io T) = some (s', obs) → .read p ∈ obs →
      obs = [.read p, .ended (.error (.handler (.unsolicited id p.type)))] ∧ s'.network = none ∧ s'.running = false ∧
        s'.outgoing = [] ∧ s'.sys = s.sys) := by
  have h1 : p ≠ .pingResp := by
    rintro rfl
    simp [ackId] at hid
  have h2 : ∀ d, p ≠ .disconnect d := by
    rintro d rfl
    simp [ackId] at hid
  refine ⟨fun s s' b lost io T obs hs h hr => ?_, fun s s' b io T obs hs h hr => ?_⟩
  · have ha := Tokio.turn_alive h
    rw [hs] at ha
    exact Tokio.turn_refused h hr h1 h2 (by rw [hs]; exact C32_unsolicited_partial cfg ops ha p id hid hun hpub)
  · have ha := Smol.turn_alive h
    rw [hs] at ha
    exact Smol.turn_refused h hr h1 h2 (by rw [hs]; exact C32_unsolicited_partial cfg ops ha p id hid hun hpub)

/-- a PUBACK for nothing -/
example :
    (∃ s', (tokio resumeOptions 0 (tokioUp ++ [.arrive [0x40, 2, 0, 1]])).step (.turn .read 0 true (at' 2)) =
      some (s', [.read (.pubAck ⟨1, .success, .empty⟩), .ended (.error (.handler (.unsolicited 1 .pubAck)))])) ∧
    (∃ s', (smol true resumeOptions 0 smolUp).step (.turn (.read [0x40, 2, 0, 1]) true (at' 2)) =
      some (s', [.read (.pubAck ⟨1, .success, .empty⟩), .ended (.error (.handler (.unsolicited 1 .pubAck)))])) :=
  ⟨⟨_, rfl⟩, ⟨_, rfl⟩⟩

end Mqrstt.Props
