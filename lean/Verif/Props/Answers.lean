import Verif.Proof.Answers
import Verif.Props.Connecting
/-!
# C100: messages are answered at once; C101: what the client has announced that it takes
-/

namespace Mqrstt.Props
open Mqrstt Mqrstt.Spec _root_.Spec

/-! ## C100 -/

/-- **C100.** Whenever a QoS 1 message, a QoS 2 message or a PUBREL has been read, what comes next, before anything else is
read, written or shown to the handler, is its answer, after at most a call of the handler with just this packet; or `run` ends;
or it came in place of CONNACK and `connect` fails. -/
theorem C100_answered_at_once (tr pre post : List Obs) (p r : Packet) (h : IsTrace tr) (e : tr = pre ++ .read p :: post)
    (hr : answerTo p = some r) : AnsweredNext p r post := by
  obtain ⟨tr1, o1, o2, tr2, h1, -, rfl⟩ := h.pos (fun fl v o w _ hs => hs.answersNext) e
  exact AnsweredNext.more (h1 p rfl r hr) _

/-- a QoS 2 message, then a copy of it, then PUBREL -/
example : tokioTrace resumeOptions 0 (tokioUp ++ [.arrive [0x34, 0x06, 0, 1, 97, 0, 7, 0], .turn .read 0 true (at' 2),
      .arrive [0x34, 0x06, 0, 1, 97, 0, 7, 0], .turn .read 0 true (at' 3), .arrive [0x62, 0x02, 0, 7], .turn .read 0 true (at' 4)]) =
    let m : Packet := .publish ⟨false, .exactlyOnce, false, ⟨[97], by decide⟩, some 7, .empty, []⟩
    tokioTrace resumeOptions 0 tokioUp ++ [.read m, .delivered m, .wrote (.pubRec ⟨7, .success, .empty⟩) 2 2,
      .read m, .wrote (.pubRec ⟨7, .success, .empty⟩) 3 3,
      .read (.pubRel ⟨7, .success, .empty⟩), .delivered (.pubRel ⟨7, .success, .empty⟩), .wrote (.pubComp ⟨7, .success, .empty⟩) 4 4] :=
  rfl

/-! ## C101 -/

/-- **C101**, the part that holds: at no moment is more than one QoS 1 message read and not answered on a connection; so QoS 1
messages alone cannot exceed any receive maximum. Missing: QoS 2 messages and the size of packets, see below. -/
theorem C101_one_at_a_time_partial (tr : List Obs) (h : IsTrace tr) (pre : List Obs) (hp : pre <+: tr) :
    (unfinished .atLeastOnce pre).length ≤ 1 := by
  obtain ⟨fl, o, t, v, hv⟩ := h.vrun
  exact hv.oneOpen_prefix hp

/-- the message has been read and the connection fails before the answer -/
example : unfinished .atLeastOnce (smolTrace true resumeOptions 0 (smolUp ++
    [.turn (.read [0x32, 0x06, 0, 1, 97, 0, 1, 0]) true (at' 2), .turn (.read [0x32, 0x06, 0, 1, 97, 0, 5, 0]) false (at' 3)])) = [5] := rfl

/-- a client that takes one message at a time, of at most 20 bytes -/
def modest : Options := Options.build ⟨[97], by decide⟩ [.receiveMax 1, .sendMax 4, .maxPacketSize 20]

/-- 30 bytes -/
def thirtyBytes : Bytes := [0x30, 28, 0, 1, 97, 0] ++ List.replicate 24 120
def thirtyMessage : Publish := ⟨false, .atMostOnce, false, ⟨[97], by decide⟩, none, .empty, List.replicate 24 120⟩

/-- **C101 is violated**: the client has announced that it takes packets of at most 20 bytes; a message of 30 bytes is read
and given to the handler by either network. -/
theorem C101_packet_size_violated :
    thirtyBytes.length = 30 ∧
    (∃ ops, let tr := tokioTrace modest 0 ops
      announcedSize tr = some 20 ∧ ∃ pre, tr = pre ++ [.read (.publish thirtyMessage), .delivered (.publish thirtyMessage)]) ∧
    (∃ ops, let tr := smolTrace true modest 0 ops
      announcedSize tr = some 20 ∧ ∃ pre, tr = pre ++ [.read (.publish thirtyMessage), .delivered (.publish thirtyMessage)]) :=
  ⟨rfl, ⟨tokioUp ++ [.arrive thirtyBytes, .turn .read 0 true (at' 2)], rfl, tokioTrace modest 0 tokioUp, rfl⟩,
    ⟨smolUp ++ [.turn (.read thirtyBytes) true (at' 2)], rfl, smolTrace true modest 0 smolUp, rfl⟩⟩

/-- **C101 is violated**: the client has announced that it takes one unfinished message at a time; the server sends three of
QoS 2, and either network gives all of them to the handler and asks for more. -/
theorem C101_receive_maximum_violated :
    (∃ ops, let tr := tokioTrace modest 0 ops
      announcedReceive tr = 1 ∧ unfinished .exactlyOnce tr = [9, 8, 7] ∧ (deliveredIn tr).length = 4 ∧ isRunning tr = true) ∧
    (∃ ops, let tr := smolTrace true modest 0 ops
      announcedReceive tr = 1 ∧ unfinished .exactlyOnce tr = [9, 8, 7] ∧ (deliveredIn tr).length = 4 ∧ isRunning tr = true) :=
  ⟨⟨tokioUp ++ [.arrive [0x34, 0x06, 0, 1, 97, 0, 7, 0], .turn .read 0 true (at' 2),
      .arrive [0x34, 0x06, 0, 1, 97, 0, 8, 0], .turn .read 0 true (at' 3),
      .arrive [0x34, 0x06, 0, 1, 97, 0, 9, 0], .turn .read 0 true (at' 4)], rfl, rfl, rfl, rfl⟩,
    ⟨smolUp ++ [.turn (.read [0x34, 0x06, 0, 1, 97, 0, 7, 0]) true (at' 2),
      .turn (.read [0x34, 0x06, 0, 1, 97, 0, 8, 0]) true (at' 3),
      .turn (.read [0x34, 0x06, 0, 1, 97, 0, 9, 0]) true (at' 4)], rfl, rfl, rfl, rfl⟩⟩

end Mqrstt.Props
