import Verif.Proof.ErrorText
import Verif.Proof.ErrorParts
import Verif.Props.Refusals
/-!
# What the text of an error tells (C114)
-/

namespace Mqrstt.Props
open Mqrstt Mqrstt.Spec _root_.Spec

/-- **C114, errors of `run` and `connect`.** Two errors with the same text are the same error, whatever the texts `i` and `j` of
the parts the model leaves out (of an I/O error, of a type, of a packet): the text tells the kind of error, the reason code, the
packet identifier and type, the property, and the numbers. -/
theorem C114_connection_errors (e f : ConnErr) (i j : Bytes) (h : e.display i = f.display j) :
    e = f ∨ ∃ p q, e = .notConnAck p ∧ f = .notConnAck q :=
  connErr_inj h

example : (ConnErr.handler (.unsolicited 7 .pubRec)).display [] = text "Handler Error: Unsolicited(7, PubRec)" ∧
    (ConnErr.refused .notAuthorized).display [] = text "Connection refused, return code: NotAuthorized" ∧
    (ConnErr.deserialization (.unknownFixedHeader 0x41)).display [] =
      text "Deserialization error: Malformed FixedHeader 1000001" ∧
    (ConnErr.deserialization (.insufficientData 3 12)).display (text "mqrstt::packets::PubAck") =
      text "Deserialization error: There is insufficient for mqrstt::packets::PubAck data (3) to take 12 bytes" ∧
    (ConnErr.deserialization (.unexpectedProperty .topicAlias .connAck)).display [] =
      text "Deserialization error: Property type TopicAlias is not allowed for packet type ConnAck" := by
  decide

/-- **C114, errors of calls.** Two errors with the same text are the same error. -/
theorem C114_client_errors (e f : ClientErr) (h : e.display = f.display) : e = f := clientErr_inj h

example : (ClientErr.validation (.topicSize 65536)).display = text "Packet validation error: Topic too large: 65536" ∧
    ClientErr.noNetworkChannel.display = text "Internal network channel is closed" := by
  decide

/-- **C114, what the texts mention.** The text of every error of `run` and `connect` mentions what the error holds, in order:
numbers in decimal digits (the first byte of a packet in binary ones), packet types, properties and reason codes under the names
that MQTT gives them, and the texts that come from elsewhere. -/
theorem C114_connection_errors_say (e : ConnErr) (i : Bytes) : Mentions (e.display i) (connParts i e) := connErr_mentions e i

/-- The same for the errors of calls. -/
theorem C114_client_errors_say (e : ClientErr) : Mentions e.display (clientParts e) := clientErr_mentions e

example : connParts [] (.deserialization (.unexpectedProperty .topicAlias .connAck)) = [.property .topicAlias, .packet .connAck] ∧
    StandsFor (text "TopicAlias") (.property .topicAlias) ∧ ¬ StandsFor (text "TopicAliasMaximum") (.property .topicAlias) ∧
    StandsFor (text "1000001") (.binary 0x41) ∧ ¬ StandsFor (text "1000001") (.number 0x41) ∧
    ¬ StandsFor (text "ServerBusy") (.reason .banned) := by
  refine ⟨rfl, by simp only [StandsFor]; decide, by simp only [StandsFor]; decide, by simp only [StandsFor, Binary]; decide,
    by simp only [StandsFor, Decimal]; decide, ?_⟩
  simp only [StandsFor, Names, IsCode]
  decide

/-- **C114, errors of the session (partial).** Two errors with the same text are the same error, or both are acknowledgements of
the same identifier that nothing waits for. Missing: which kind of acknowledgement it was. -/
theorem C114_session_errors_partial (e f : HErr) (h : e.display = f.display) :
    e = f ∨ ∃ id t u, e = .unsolicited id t ∧ f = .unsolicited id u :=
  hErr_display_inj h

example : (HErr.packetIdCollision 5).display = text "Packet collision error. packet ID: 5" ∧
    (HErr.unexpectedPacket .pingReq).display = text "Received an unexpected packet: PingReq" := by
  decide

/-- **C114 is false of the code.** (1) The texts for a PUBACK and a PUBREC that nothing waits for are the same. (2) A client with a
maximum of 20 bytes refuses a publish of 36 bytes and says that 34 are allowed. -/
theorem C114_text_violated :
    (HErr.unsolicited 1 .pubAck).display = (HErr.unsolicited 1 .pubRec).display ∧
    (∃ s' e, (tokio modest 0 []).step (.client (.call publishThirty)) = some (s', [.user (.rejected publishThirty none e)]) ∧
      e.display = text "Packet validation error: Packet size is larger than allowed 34" ∧ modest.config.maxPacketSize = 20) :=
  ⟨rfl, _, _, rfl, by decide, rfl⟩

end Mqrstt.Props
