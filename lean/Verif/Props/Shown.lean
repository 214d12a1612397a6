import Verif.Proof.Shown
/-!
# The text of a packet tells it apart (C99)
-/

namespace Mqrstt.Props
open Mqrstt Mqrstt.Spec _root_.Spec

/-- **C99**: two packets have the same text exactly if they agree in everything the text is about: the type; for messages topic,
QoS, DUP, RETAIN and identifier; for acknowledgements identifier and reason; for CONNACK session and reason; for DISCONNECT the
reason; for CONNECT clean start, user name, password, keep-alive and client identifier. Neither a topic nor a client identifier
nor a user name can make the text look like that of another packet. -/
theorem C99_text_faithful (p q : Packet) : p.display = q.display ↔ shown p = shown q :=
  ⟨display_inj, display_of_shown⟩

/-- a topic that looks like the rest of the text -/
example : (Packet.publish ⟨false, .atLeastOnce, false, ⟨[97, 44, 32, 113, 111, 115, 58], by decide⟩, some 7, .empty, [1]⟩).display =
      text "Publish(topic: a, qos:, qos: AtLeastOnce, dup: false, retain: false, packet id: Some(7))" ∧
    shown (.pubAck ⟨7, .success, .empty⟩) ≠ shown (.pubAck ⟨7, .quotaExceeded, .empty⟩) :=
  ⟨rfl, by simp [shown]⟩

/-- **C99**: the reason code is shown under the name that MQTT gives it in packets of this type, but for spaces and capitals. -/
theorem C99_reason_named (p : Packet) (t : PacketType) (r : Reason) (hp : codeOf p = some (t, r)) (hr : IsCode t r) :
    ∃ before name after, p.display = before ++ name ++ after ∧ Names name t r := by
  have named : Names (text r.name) t r := by
    unfold Names
    obtain ⟨-, h0⟩ := hr
    cases r
    case success =>
      have h0 := h0 rfl
      cases t <;> first | exact absurd h0 (by decide) | decide
    case normalDisconnection =>
      have h0 := h0 rfl
      cases t <;> first | exact absurd h0 (by decide) | decide
    case grantedQoS0 =>
      have h0 := h0 rfl
      cases t <;> first | exact absurd h0 (by decide) | decide
    all_goals (rw [codeTitle_nonzero _ _ (by decide)]; decide)
  cases p <;> simp only [codeOf, Option.some.injEq, Prod.mk.injEq, reduceCtorEq] at hp <;>
    (obtain ⟨rfl, rfl⟩ := hp; exact ⟨_, _, text ")", rfl, named⟩)

example : IsCode .pubAck .quotaExceeded ∧ Names (text "QuotaExceeded") .pubAck .quotaExceeded ∧
    ¬Names (text "PacketTooLarge") .pubAck .quotaExceeded ∧
    (Packet.pubAck ⟨300, .quotaExceeded, .empty⟩).display = text "PubAck(id:300, reason code: QuotaExceeded)" :=
  ⟨⟨by decide, fun h => absurd h (by decide)⟩, by unfold Names; decide, by unfold Names; decide, rfl⟩

/-- **C99**: the text of a message says its topic as it is, the title of its QoS, DUP and RETAIN in words, and its identifier
in decimal digits. -/
theorem C99_message_read (m : Publish) : ∃ qos dup retain id,
    (Packet.publish m).display = text "Publish(topic: " ++ m.topic.bytes ++ text ", qos: " ++ qos ++ text ", dup: " ++ dup ++
      text ", retain: " ++ retain ++ text ", packet id: " ++ id ++ text ")" ∧
    letters qos = letters (text (qosTitle (qosNumber m.qos))) ∧ Truth dup m.dup ∧ Truth retain m.retain ∧
    Optional (fun bs (id : UInt16) => Decimal bs id.toNat) id m.pkid :=
  ⟨_, _, _, _, rfl, by cases m.qos <;> decide, bool_means _, bool_means _, opt_means (fun (id : UInt16) => decimal_means id.toNat) _⟩

example : (Packet.publish ⟨true, .exactlyOnce, false, ⟨[97], by decide⟩, some 10, .empty, [1]⟩).display =
      text "Publish(topic: a, qos: ExactlyOnce, dup: true, retain: false, packet id: Some(10))" ∧
    letters (text "ExactlyOnce") = letters (text (qosTitle 2)) ∧ Decimal (text "10") 10 ∧ ¬Decimal (text "10") 2 :=
  ⟨rfl, by decide, by unfold Decimal; decide, by unfold Decimal; decide⟩

/-- **C99**: the text of a CONNECT says in words whether it is a clean start, user name and password as literals from which they
can be read back whatever characters are in them, the keep-alive interval in decimal digits, and the client identifier as it is. -/
theorem C99_connect_read (c : Connect) : ∃ clean username password keepAlive,
    (Packet.connect c).display = text "Connect(version: V5, clean: " ++ clean ++ text ", username: " ++ username ++
      text ", password: " ++ password ++ text ", keep_alive: " ++ keepAlive ++ text ", client_id: " ++ c.clientId.bytes ++ text ")" ∧
    Truth clean c.cleanStart ∧ Optional Literal username c.username ∧ Optional Literal password c.password ∧
    Decimal keepAlive c.keepAlive.toNat :=
  ⟨_, _, _, _, rfl, bool_means _, opt_means str_means _, opt_means str_means _, decimal_means _⟩

/-- a user name with a quote, a backslash, a line feed and an escape character -/
example : Literal (text "\"\\\"\\\\\\n\\u{1b}\"") ⟨[34, 92, 10, 27], by decide⟩ ∧
    ¬Literal (text "\"\\u{1c}\"") ⟨[27], by decide⟩ :=
  ⟨⟨text "\\\"\\\\\\n\\u{1b}", rfl, by decide⟩, by
    rintro ⟨inner, h, e⟩
    have : inner = text "\\u{1c}" := by
      have h := congrArg (fun l => (l.drop 1).dropLast) h
      simpa [text] using h.symm
    rw [this] at e
    exact absurd e (by decide)⟩

/-- **C99**: the text of an acknowledgement says its identifier in decimal digits. -/
theorem C99_ack_read (p : Packet) (t : PacketType) (id : UInt16) (r : Reason) (h : shown p = .ack t id r) :
    ∃ before digits after, p.display = before ++ digits ++ text ", reason code: " ++ after ∧ (∀ b ∈ before, b.toNat < 48 ∨ 57 < b.toNat) ∧
      Decimal digits id.toNat := by
  cases p <;> simp only [shown, Shown.ack.injEq, reduceCtorEq] at h <;> obtain ⟨rfl, rfl, rfl⟩ := h
  · exact ⟨text "PubAck(id:", _, text _ ++ text ")", (by simp only [Packet.display, List.append_assoc]; rfl), by decide, decimal_means _⟩
  · exact ⟨text "PubRec(id: ", _, text _ ++ text ")", (by simp only [Packet.display, List.append_assoc]; rfl), by decide, decimal_means _⟩
  · exact ⟨text "PubRel(id: ", _, text _ ++ text ")", (by simp only [Packet.display, List.append_assoc]; rfl), by decide, decimal_means _⟩
  · exact ⟨text "PubComp(id: ", _, text _ ++ text ")", (by simp only [Packet.display, List.append_assoc]; rfl), by decide, decimal_means _⟩

example : shown (.pubRel ⟨300, .success, .empty⟩) = .ack .pubRel 300 .success ∧ Decimal (text "300") 300 :=
  ⟨rfl, by unfold Decimal; decide⟩

/-- **C99**: the text of a CONNACK says in words whether the session is there. -/
theorem C99_connack_read (c : ConnAck) : ∃ present after,
    (Packet.connAck c).display = text "ConnAck(session:ConnAckFlags { session_present: " ++ present ++ text " }, reason code" ++ after ∧
    Truth present c.sessionPresent :=
  ⟨_, text _ ++ text ")", (by simp only [Packet.display, List.append_assoc]; rfl), bool_means _⟩

example : Truth (text "true") true ∧ ¬Truth (text "true") false := ⟨rfl, by unfold Truth; decide⟩

end Mqrstt.Props
