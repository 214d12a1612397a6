import Verif.Proof.Understood
import Verif.Props.Bytes
import Verif.Props.Liberty
import Verif.Props.Heard
/-!
# C106: a conforming server is understood

C44 and C46 speak of the packets that the library's own decoder finds in the bytes of a connection. Here the bytes are what a
server sends that follows MQTT's description of the wire format (`PacketSays`, Spec/Wire.lean), which mentions no decoder.
-/

namespace Mqrstt.Props
open Mqrstt Mqrstt.Spec _root_.Spec

/-- **C106, smol.** While the server sends the packets `qs` one after the other in MQTT's wire format, in any of the forms the
standard allows, however the bytes are split into reads and whatever else the client does: the packets processed are the first
ones of `qs`, in this order. None is altered, invented, skipped or swapped. -/
theorem C106_smol (checks : Bool) (o : Options) (t : Nat) (ops : List SmolOp) (qs : List Packet) (sent : Bytes)
    (hs : ListSays FromServer qs sent) (hb : (smolRx checks o t ops).bytes <+: sent) :
    (smolRx checks o t ops).packets <+: qs := by
  obtain ⟨rest, h⟩ := C44_packets_of_stream checks o t ops
  exact prefix_said BufferPacket.more BufferPacket.nil buffer_of_server h hs hb

/-- **C106, tokio (partial).** The same. Missing: histories in which a read was abandoned with bytes in hand (C46), and packets
in the short forms of `OpenEnded`, where the reader goes on into the next packet. -/
theorem C106_tokio_partial (o : Options) (t : Nat) (ops : List TokioOp) (h : (tokioRx o t ops).taken = 0) (qs : List Packet)
    (sent : Bytes) (hs : ListSays (fun p bs => FromServer p bs ∧ ¬ OpenEnded p bs) qs sent)
    (hb : (tokioRx o t ops).bytes <+: sent) : (tokioRx o t ops).packets <+: qs := by
  obtain ⟨rest, h⟩ := C46_packets_of_stream_partial o t ops h
  exact prefix_said StreamPacket.more StreamPacket.nil stream_of_server h hs hb

/-- **C106, smol (partial).** Whoever sends the bytes: the packets processed are what the bytes of the connection say, one after
the other from the first byte on, up to the liberties of the buffered reader. -/
theorem C106_said_smol_partial (checks : Bool) (o : Options) (t : Nat) (ops : List SmolOp) :
    ∃ used rest, (smolRx checks o t ops).bytes = used ++ rest ∧
      ListSays (PacketSaysBut buffered) (smolRx checks o t ops).packets used := by
  obtain ⟨rest, h⟩ := C44_packets_of_stream checks o t ops
  obtain ⟨used, h1, h2⟩ := said_of_stream (says := PacketSaysBut buffered) (fun _ _ _ h => C105_buffered_partial h) h
  exact ⟨used, rest, h1, h2⟩

/-- **C106, tokio (partial).** The same up to the liberties of the streaming reader, if no read was abandoned with bytes in hand. -/
theorem C106_said_tokio_partial (o : Options) (t : Nat) (ops : List TokioOp) (h : (tokioRx o t ops).taken = 0) :
    ∃ used rest, (tokioRx o t ops).bytes = used ++ rest ∧
      ListSays (PacketSaysBut streaming) (tokioRx o t ops).packets used := by
  obtain ⟨rest, h⟩ := C46_packets_of_stream_partial o t ops h
  obtain ⟨used, h1, h2⟩ := said_of_stream (says := PacketSaysBut streaming) (fun _ _ _ h => C105_streaming_partial h) h
  exact ⟨used, rest, h1, h2⟩

/-- **C106, tokio (partial).** Nor are packets forgotten: on every endless schedule in which `run` goes on, no read is abandoned
with bytes in hand and the loop does not neglect the connection for ever, the packets a conforming server has sent are all
processed in the end. Missing: as for C104; and SUBACK with a reason string and the short forms of `Misread` are refused. -/
theorem C106_processed_tokio_partial (o : Options) (t : Nat) (sched : Nat → TokioOp) (start n : Nat)
    (hrun : ∀ n, start ≤ n → isRunning (tokioTrace o t (upTo sched n)) = true)
    (hkept : ∀ n, start ≤ n → (tokioRx o t (upTo sched n)).taken = 0) (hfair : HearsTokio o t sched) (hn : start ≤ n)
    (qs : List Packet) (sent : Bytes) (hs : ListSays Readable qs sent)
    (harrived : sent <+: (tokioRx o t (upTo sched n)).bytes) :
    ∃ k, qs <+: (tokioRx o t (upTo sched (n + k))).packets := by
  obtain ⟨fs, -, h2, rfl, rfl⟩ := encodings_of hs
  exact C104_processed_tokio_partial o t sched start n hrun hkept hfair hn fs h2 harrived

/-- **C106, smol (partial).** The same, as long as the server goes on sending (C104). -/
theorem C106_processed_smol_partial (c : Bool) (o : Options) (t : Nat) (sched : Nat → SmolOp) (start n : Nat)
    (hrun : ∀ n, start ≤ n → isRunning (smolTrace c o t (upTo sched n)) = true) (hfair : HearsSmol c o t sched) (hn : start ≤ n)
    (qs : List Packet) (sent : Bytes) (hs : ListSays Readable qs sent)
    (harrived : sent <+: (smolRx c o t (upTo sched n)).bytes) :
    ∃ k, qs <+: (smolRx c o t (upTo sched (n + k))).packets := by
  obtain ⟨fs, h1, -, rfl, rfl⟩ := encodings_of hs
  exact C104_processed_smol_partial c o t sched start n hrun hfair hn fs h1 harrived

/-! ### A conversation -/

theorem oneByte (n : UInt8) (hn : n.toNat < 128) : LenBytes n.toNat [n] :=
  ⟨⟨[], n, rfl, by decide, by simp, by unfold more; omega⟩, by simp [vbiValue]; omega, fun _ h _ => VarInt.isVbi_pos h⟩

theorem noSection (s : Spec.Section) : SectionSays s .empty [0] := by
  refine ⟨[0], [], [], rfl, oneByte 0 (by decide), .nil, by simp, .nil, ⟨fun p _ v => ?_, rfl, ?_⟩, fun _ _ => rfl, fun h => absurd rfl h⟩
  · simp [Props.empty]
  · cases s <;> rfl

/-- CONNACK -/
theorem connAck_said : FromServer (.connAck ⟨false, .success, .empty⟩) plainConnAck :=
  ⟨trivial, 0x20, [3], _, rfl, rfl, oneByte 3 (by decide), 0, [0], rfl, rfl, by decide, noSection _⟩

/-- PUBREC "no matching subscribers" in its short form, as many servers send it -/
theorem shortRec_said : FromServer (.pubRec ⟨1, .noMatchingSubscribers, .empty⟩) [0x50, 3, 0, 1, 0x10] :=
  ⟨trivial, 0x50, [3], _, rfl, rfl, oneByte 3 (by decide), [0, 1], [0x10], rfl, ⟨0, 1, rfl, rfl⟩,
    .inr (.inl ⟨by decide, rfl, noProps_empty⟩)⟩

/-- a publish of less than 128 bytes to the topic "a" -/
theorem published_said (payload : Bytes) (n : UInt8) (hn : n.toNat = payload.length + 4) (h : n.toNat < 128) :
    FromServer (netPublished payload) (0x30 :: n :: 0 :: 1 :: 97 :: 0 :: payload) := by
  refine ⟨trivial, 0x30, [n], 0 :: 1 :: 97 :: 0 :: payload, rfl, rfl, ?_, [0, 1, 97], [], [0], rfl, ⟨0, 1, rfl, rfl⟩, rfl,
    by simp, noSection _⟩
  have := oneByte n h
  rwa [hn] at this

/-- smol: CONNACK and the two publishes of which the first arrives in two pieces, then the PUBREC, which is refused -/
def smolTalk : List SmolOp :=
  smolUp ++ [.turn (.read [0x30, 5, 0, 1]) true (at' 2), .turn (.read [97, 0, 7, 0x30, 4, 0, 1, 97, 0]) true (at' 3),
    .turn (.read [0x50, 3, 0, 1, 0x10]) true (at' 4)]

example : (smolRx true netOptions 0 smolTalk).packets = [.connAck ⟨false, .success, .empty⟩, netPublished [7], netPublished []] ∧
    ∃ qs sent, ListSays FromServer qs sent ∧ (smolRx true netOptions 0 smolTalk).bytes <+: sent ∧ qs.length = 4 :=
  ⟨rfl, _, _, .cons connAck_said (.cons (published_said [7] 5 rfl (by decide)) (.cons (published_said [] 4 rfl (by decide))
    (.cons shortRec_said .nil))), ⟨[], by decide +kernel⟩, rfl⟩

/-- tokio: CONNACK and two publishes -/
def tokioTalk : List TokioOp :=
  tokioUp ++ [.arrive [0x30, 5, 0, 1], .arrive [97, 0, 7, 0x30, 4, 0, 1, 97, 0], .turn .read 0 true (at' 2),
    .turn .read 0 true (at' 3)]

example : (tokioRx netOptions 0 tokioTalk).packets = [.connAck ⟨false, .success, .empty⟩, netPublished [7], netPublished []] ∧
    (tokioRx netOptions 0 tokioTalk).taken = 0 ∧
    ∃ qs sent, ListSays (fun p bs => FromServer p bs ∧ ¬ OpenEnded p bs) qs sent ∧
      (tokioRx netOptions 0 tokioTalk).bytes <+: sent ∧ qs.length = 3 :=
  ⟨rfl, rfl, _, _, .cons ⟨connAck_said, id⟩ (.cons ⟨published_said [7] 5 rfl (by decide), id⟩
    (.cons ⟨published_said [] 4 rfl (by decide), id⟩ .nil)), ⟨[], by decide +kernel⟩, rfl⟩

theorem pingResp_said : Readable .pingResp [0xD0, 0] :=
  ⟨⟨trivial, 0xD0, [0], [], rfl, rfl, oneByte 0 (by decide), rfl⟩, id, id⟩

/-- the schedules of Props/Heard.lean: two PINGRESPs have arrived, the second is not yet processed -/
example : ∃ sent, ListSays Readable [.connAck ⟨false, .success, .empty⟩, .pingResp, .pingResp] sent ∧
    sent <+: (tokioRx fewIds 0 (upTo hearing 5)).bytes ∧ (tokioRx fewIds 0 (upTo hearing 5)).packets.length = 2 ∧
    sent <+: (smolRx true fewIds 0 (upTo hearingSmol 3)).bytes ∧ (smolRx true fewIds 0 (upTo hearingSmol 3)).packets.length = 2 :=
  ⟨_, .cons ⟨connAck_said, id, id⟩ (.cons pingResp_said (.cons pingResp_said .nil)), ⟨[], by decide +kernel⟩, rfl,
    ⟨[], by decide +kernel⟩, rfl⟩

/-! ### Reading on -/

/-- the first of two messages: 34 bytes -/
def longPayload : Bytes := 42 :: List.replicate 33 120

/-- what the server sends: CONNACK, PUBREC in its short form, two messages -/
def openEnded : Bytes := [0x50, 3, 0, 1, 0x10] ++ (0x30 :: 38 :: 0 :: 1 :: 97 :: 0 :: longPayload) ++ [0x30, 7, 0, 1, 97, 0, 65, 66, 67]

/-- the client has published with QoS 2; the answer and the messages arrive -/
def tokioReadsOn : List TokioOp :=
  tokioUp ++ [.client (.call (demoPublish .exactlyOnce)), .client (.submit 0), .turn .outgoing 0 true (at' 2),
    .arrive openEnded, .turn .read 0 true (at' 3)]

/-- **C106 is false of the tokio network**: the server answers a QoS 2 message with a PUBREC in the form without property length
and sends two messages. The client takes the two messages for properties of the PUBREC: it reads a PUBREC that was never sent,
the bytes are used up, and the messages are lost. -/
theorem C106_tokio_violated :
    ∃ (ops : List TokioOp) (qs : List Packet) (sent : Bytes) (P : Props),
      let rx := tokioRx resumeOptions 0 ops
      rx.taken = 0 ∧ ListSays FromServer qs sent ∧ rx.bytes = sent ∧
      qs = [.connAck ⟨false, .success, .empty⟩, .pubRec ⟨1, .noMatchingSubscribers, .empty⟩, netPublished longPayload,
        netPublished [65, 66, 67]] ∧
      rx.packets = [.connAck ⟨false, .success, .empty⟩, .pubRec ⟨1, .noMatchingSubscribers, P⟩] ∧ P.users.length = 1 ∧
      Stream StreamPacket rx.bytes rx.packets [] := by
  refine ⟨tokioReadsOn, _, _, _, rfl, .cons connAck_said (.cons shortRec_said (.cons (published_said longPayload 38 rfl (by decide))
    (.cons (published_said [65, 66, 67] 7 rfl (by decide)) .nil))), ?_, rfl, rfl, rfl, ?_⟩
  · decide +kernel
  · exact .cons (bs' := openEnded) rfl (.cons (bs' := []) rfl (.nil []))

end Mqrstt.Props
