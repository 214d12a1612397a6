import Verif.Proof.Reasons
import Verif.Props.Calm
import Verif.Props.Legal
import Verif.Props.Reconnect
/-!
# Why `run` and `connect` end with an error (C112)

C37 says that the status with which `run` ends is true. This is the same for its errors.
-/

namespace Mqrstt.Props
open Mqrstt Mqrstt.Spec _root_.Spec

/-- **C112, tokio (partial).** Whatever the history, if `run` ends with an error in a step, then what the error says is so: there
is no connection, or no client; the connection broke or was closed; a packet from a client cannot be encoded; the packet just read
is not one that a server may send, or acknowledges nothing; or what follows the packets read so far is no packet, in the way the
error says. Missing: decoding errors after a read was abandoned with bytes in hand, and the slips of C110. -/
theorem C112_reason_tokio_partial (o : Options) (t : Nat) (ops : List TokioOp) (op : TokioOp) (s' : Tokio) (obs : List Obs)
    (x : ConnErr) (h : (tokio o t ops).step op = some (s', obs)) (he : .ended (.error x) ∈ obs) :
    Claim o.cleanStart (tokioTrace o t ops) obs (TokioCut o t ops op)
      (fun e => (tokioRx o t ops).taken = 0 → Bad StreamPacket StreamBad (tokioRx o t ops) e)
      (fun p e => p.asyncWrite = .error e) x :=
  tokio_claim h he

/-- **C112, smol (partial).** The same, for every way in which the bytes arrive, with or without overflow checks. Missing: the
slips of C110. -/
theorem C112_reason_smol_partial (checks : Bool) (o : Options) (t : Nat) (ops : List SmolOp) (op : SmolOp) (s' : Smol)
    (obs : List Obs) (x : ConnErr) (h : (smol checks o t ops).step op = some (s', obs)) (he : .ended (.error x) ∈ obs) :
    Claim o.cleanStart (smolTrace checks o t ops) obs (SmolCut op)
      (Bad BufferPacket BufferBad (smolRx checks o t (ops ++ [op]))) (fun p e => p.write = .error e) x :=
  smol_claim h he

/-- every kind of error occurs: no connection, the connection is closed, a packet for servers, an acknowledgement of nothing, an
acknowledgement after the last client is gone, no client, a first byte that begins no packet, a publish without an encoding -/
example :
    (∃ s', (tokio resumeOptions 0 []).step .start = some (s', [.ended (.error .noNetwork)])) ∧
    (∃ s', (tokio resumeOptions 0 (tokioUp ++ [.arrive [0xD0], .close])).step (.turn .read 0 true (at' 2)) =
      some (s', [.ended (.error .io)])) ∧
    (∃ s', (tokio resumeOptions 0 (tokioUp ++ [.arrive [0xC0, 0]])).step (.turn .read 0 true (at' 2)) =
      some (s', [.read .pingReq, .ended (.error (.handler (.unexpectedPacket .pingReq)))])) ∧
    (∃ s', (tokio resumeOptions 0 (tokioUp ++ [.arrive [0x40, 2, 0, 1]])).step (.turn .read 0 true (at' 2)) =
      some (s', [.read (.pubAck ⟨1, .success, .empty⟩), .ended (.error (.handler (.unsolicited 1 .pubAck)))])) ∧
    (∃ s', (tokio resumeOptions 0 (tokioUp ++ sendNow askTopic 2 ++ [.client .dropClients, .arrive subAckBytes])).step
        (.turn .read 0 true (at' 3)) =
      some (s', [.read theSubAck, .ended (.error (.handler (.packetIdChannelError 1)))])) ∧
    (∃ s', (tokio resumeOptions 0 (tokioUp ++ [.client .dropClients])).step (.turn .outgoing 0 true (at' 2)) =
      some (s', [.ended (.error .noOutgoingPacketSender)])) ∧
    (∃ s', (tokio resumeOptions 0 (tokioUp ++ [.arrive [0x41]])).step (.turn .read 0 true (at' 2)) =
      some (s', [.ended (.error (.deserialization (.unknownFixedHeader 0x41)))])) ∧
    (∃ s' e, (tokio resumeOptions 0 (tokioUp ++ [.client (.call hugeSubId), .client (.submit 0)])).step
        (.turn .outgoing 0 true (at' 2)) = some (s', [.ended (.error (.serialization e))])) :=
  ⟨⟨_, rfl⟩, ⟨_, rfl⟩, ⟨_, rfl⟩, ⟨_, rfl⟩, ⟨_, rfl⟩, ⟨_, rfl⟩, ⟨_, rfl⟩, _, _, rfl⟩

example :
    (∃ s', (smol true resumeOptions 0 []).step .start = some (s', [.ended (.error .noNetwork)])) ∧
    (∃ s', (smol true resumeOptions 0 (smolUp ++ [.turn (.read [0xD0]) true (at' 2)])).step (.turn (.read []) true (at' 3)) =
      some (s', [.ended (.error .io)])) ∧
    (∃ s', (smol true resumeOptions 0 smolUp).step (.turn (.read [0x40, 2, 0, 1]) true (at' 2)) =
      some (s', [.read (.pubAck ⟨1, .success, .empty⟩), .ended (.error (.handler (.unsolicited 1 .pubAck)))])) ∧
    (∃ s', (smol true resumeOptions 0 (smolUp ++ [.client .dropClients])).step (.turn .outgoing true (at' 2)) =
      some (s', [.ended (.error .noOutgoingPacketSender)])) ∧
    (∃ s', (smol true resumeOptions 0 smolUp).step (.turn (.read [0x41, 0]) true (at' 2)) =
      some (s', [.ended (.error (.deserialization (.unknownFixedHeader 0x41)))])) :=
  ⟨⟨_, rfl⟩, ⟨_, rfl⟩, ⟨_, rfl⟩, ⟨_, rfl⟩, _, rfl⟩

/-- **C112, tokio: `connect` (partial).** Whatever the history, if `connect` fails, then what the error says is so: the connection
broke or was closed; the answer is no packet, in the way the error says, is not a CONNACK, or is a CONNACK with this reason code;
the CONNECT, or a publish sent again, cannot be encoded; or the session is over and there is no client to take back the packet
identifiers. Missing: the slips of C110. -/
theorem C112_connect_tokio_partial (o : Options) (t : Nat) (ops : List TokioOp) (i : TokioConnect) (s' : Tokio) (obs : List Obs)
    (x : ConnErr) (h : (tokio o t ops).step (.connect i) = some (s', obs)) (he : .connectFailed x ∈ obs) :
    ConnectClaim o.cleanStart (tokioTrace o t ops) obs (tokio o t ops).options.connectPacket (TokioBroke i) (StreamBad i.bytes)
      (fun p e => p.asyncWrite = .error e) x :=
  tokio_connect_claim h he

/-- **C112, smol: `connect` (partial).** The same. Missing: an answer that is no packet is reported as an I/O error. -/
theorem C112_connect_smol_partial (checks : Bool) (o : Options) (t : Nat) (ops : List SmolOp) (i : SmolConnect) (s' : Smol)
    (obs : List Obs) (x : ConnErr) (h : (smol checks o t ops).step (.connect i) = some (s', obs)) (he : .connectFailed x ∈ obs) :
    ConnectClaim o.cleanStart (smolTrace checks o t ops) obs (smol checks o t ops).options.connectPacket
      (SmolBroke i ∨ Hopeless BufferPacket i.chunks.flatten) (fun _ => False) (fun p e => p.write = .error e) x :=
  smol_connect_claim h he

/-- `connect` fails because the server closes the connection, refuses, does not answer with a CONNACK, answers with nonsense,
and because the session with its publish is over and the last client gone -/
example :
    (∃ s' c, (tokio resumeOptions 0 []).step (.connect ⟨true, [0x20, 3, 0], true, fun _ => true, true, at' 1⟩) =
      some (s', [c, .connectFailed .io])) ∧
    (∃ s' c r, (tokio resumeOptions 0 []).step (.connect ⟨true, [0x20, 3, 0, 0x87, 0], false, fun _ => true, true, at' 1⟩) =
      some (s', [c, r, .connectFailed (.refused .notAuthorized)])) ∧
    (∃ s' c, (tokio resumeOptions 0 []).step (.connect ⟨true, [0xD0, 0], false, fun _ => true, true, at' 1⟩) =
      some (s', [c, .read .pingResp, .connectFailed (.notConnAck .pingResp)])) ∧
    (∃ s' c, (tokio resumeOptions 0 []).step (.connect ⟨true, [0], false, fun _ => true, true, at' 1⟩) =
      some (s', [c, .connectFailed (.deserialization (.unknownFixedHeader 0))])) ∧
    (∃ s' c r, (tokio resumeOptions 0 (tokioUnacked ++ [.client .dropClients])).step
        (.connect ⟨true, plainConnAck, false, fun _ => true, true, at' 4⟩) =
      some (s', [c, r, .connectFailed (.handler (.packetIdChannelError 1))])) ∧
    (∃ s' c r, (smol true resumeOptions 0 (smolUnacked ++ [.client .dropClients])).step
        (.connect ⟨true, [plainConnAck], true, at' 4⟩) =
      some (s', [c, r, .connectFailed (.handler (.packetIdChannelError 1))])) :=
  ⟨⟨_, _, rfl⟩, ⟨_, _, _, rfl⟩, ⟨_, _, rfl⟩, ⟨_, _, rfl⟩, ⟨_, _, _, rfl⟩, _, _, _, rfl⟩

/-- **C112 is false of the code.** (1) tokio: half a message arrives, the client publishes, the other half arrives; `run` reports
a first byte that begins no packet, although what the server sent is a CONNACK and a message. (2) both: the server sends a
DISCONNECT with a reason code that does not exist, and `run` reports a property that does not exist, although there is none.
(3) smol: the server answers a CONNECT with a byte that begins no packet, and `connect` reports an I/O error, although the
connection did not break. -/
theorem C112_reason_violated :
    (∃ s', (tokio resumeOptions 0 tokioBroken).step (.turn .read 0 true (at' 3)) =
        some (s', [.ended (.error (.deserialization (.unknownFixedHeader 0)))]) ∧
      ∃ qs, ListSays Readable qs (tokioRx resumeOptions 0 tokioBroken).bytes) ∧
    (∃ s', (tokio resumeOptions 0 (tokioUp ++ [.arrive [0xE0, 1, 1]])).step (.turn .read 0 true (at' 2)) =
        some (s', [.ended (.error (.deserialization (.unknownProperty 1)))])) ∧
    (∃ s', (smol true resumeOptions 0 smolUp).step (.turn (.read [0xE0, 1, 1]) true (at' 2)) =
        some (s', [.ended (.error (.deserialization (.unknownProperty 1)))])) ∧
    ¬ Justified .disconnect 1 [1] (.unknownProperty 1) ∧
    (∃ s' c, let i : SmolConnect := ⟨true, [[0, 3]], true, at' 1⟩
      (smol true resumeOptions 0 []).step (.connect i) = some (s', [c, .connectFailed .io]) ∧ ¬ SmolBroke i) := by
  refine ⟨⟨_, rfl, ?_⟩, ⟨_, rfl⟩, ⟨_, rfl⟩, ?_, _, _, rfl, by simp [SmolBroke]⟩
  · have message := published_said [0] 5 rfl (by decide)
    have e : (tokioRx resumeOptions 0 tokioBroken).bytes = plainConnAck ++ ([0x30, 5, 0, 1, 97, 0, 0] ++ []) := by decide +kernel
    rw [e]
    exact ⟨_, .cons ⟨connAck_said, id, id⟩ (.cons ⟨message, id, id⟩ .nil)⟩
  · rintro ⟨items, ⟨before, len, good, more, h, hv, -⟩, -⟩
    have := VarInt.isVbi_pos hv
    have h := congrArg List.length h
    simp at h
    omega

end Mqrstt.Props
