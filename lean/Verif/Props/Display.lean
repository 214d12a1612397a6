import Verif.Proof.Display
/-!
# Packets as text (C83, C84)
-/

namespace Mqrstt.Props
open Mqrstt Mqrstt.Spec

/-! ## C83 -/

/-- **C83**, the part that holds: the text of a packet, which the log shows for every packet written, says nothing about the
payload, the properties, the last will and the topic filters: packets that differ in these only have the same text. Missing: the password. -/
theorem C83_content_hidden_partial (p q : Packet) (h : withoutContent p = withoutContent q) :
    p.display = q.display ∧ p.sendLine = q.sendLine := by
  have : p.display = q.display := by rw [display_withoutContent p, display_withoutContent q, h]
  exact ⟨this, by rw [Packet.sendLine, Packet.sendLine, this]⟩

/-- two messages with different payloads and properties -/
def secretMessage (payload : Bytes) (n : UInt32) : Packet :=
  .publish ⟨false, .atLeastOnce, false, ⟨[116], by decide⟩, some 7, { Props.empty with subIds := [n] }, payload⟩

example : withoutContent (secretMessage [1, 2, 3] 4) = withoutContent (secretMessage [5] 6) ∧
    (secretMessage [1, 2, 3] 4).display =
      text "Publish(topic: t, qos: AtLeastOnce, dup: false, retain: false, packet id: Some(7))" := ⟨rfl, rfl⟩

/-- **C83 is violated**: the text of a CONNECT, and so the log, shows the password. -/
theorem C83_password_violated :
    (∀ (c : Connect) (pw : Str), c.password = some pw → Plain pw → ∃ before after,
      (Packet.connect c).sendLine = before ++ text "password: Some(\"" ++ pw.bytes ++ text "\")" ++ after) ∧
    ∃ p q, withoutSecrets p = withoutSecrets q ∧ p.display ≠ q.display := by
  constructor
  · intro c pw hpw hp
    refine ⟨text "Sending packet " ++ text "Connect(version: V5, clean: " ++ boolText c.cleanStart ++ text ", username: " ++
      debugOpt debugStr c.username ++ text ", ", text ", keep_alive: " ++ decimal c.keepAlive.toNat ++
      text ", client_id: " ++ c.clientId.bytes ++ text ")", ?_⟩
    have e1 : text ", password: " = text ", " ++ text "password: " := rfl
    have e2 : text "password: Some(\"" = text "password: " ++ text "Some(" ++ text "\"" := rfl
    have e3 : text "\")" = text "\"" ++ text ")" := rfl
    simp only [Packet.sendLine, Packet.display, hpw, debugOpt, debugStr, escape_plain hp, e1, e2, e3, List.append_assoc]
  · refine ⟨.connect ⟨true, none, none, some ⟨[97], by decide⟩, 10, .empty, ⟨[97], by decide⟩⟩,
      .connect ⟨true, none, none, some ⟨[98], by decide⟩, 10, .empty, ⟨[97], by decide⟩⟩, rfl, by decide⟩

example : Plain ⟨[115, 101, 99, 114, 101, 116], by decide⟩ := by unfold Plain; decide

/-! ## C84 -/

/-- **C84**, the part that holds: the text of a packet, and its line in the log, is one line, whatever user name, password,
payload and properties are, as long as topic and client identifier contain no line breaks. -/
theorem C84_one_line_partial (p : Packet) (hc : ∀ c, p = .connect c → OneLine c.clientId.bytes)
    (hm : ∀ m, p = .publish m → OneLine m.topic.bytes) : OneLine p.sendLine := by
  refine oneLine_append (by decide) ?_
  cases p <;> simp only [Packet.display] <;> (repeat' with_reducible apply oneLine_append) <;>
    first
      | with_reducible exact bool_oneLine _ | with_reducible exact digits_oneLine _ | with_reducible exact reason_oneLine _
      | with_reducible exact qos_oneLine _ | with_reducible exact debugOpt_oneLine debugStr_oneLine _
      | with_reducible exact debugOpt_oneLine (fun _ => digits_oneLine _) _
      | with_reducible exact hc _ rfl | with_reducible exact hm _ rfl | decide

/-- a user name with a line feed -/
example : (Packet.connect ⟨true, none, some ⟨[97, 10, 98], by decide⟩, none, 10, .empty, ⟨[97], by decide⟩⟩).display =
    text "Connect(version: V5, clean: true, username: Some(\"a\\nb\"), password: None, keep_alive: 10, client_id: a)" := rfl

/-- `a`, a line feed, `Sending packet PingReq`, a line feed; MQTT forbids only the null character in a topic -/
def forgedTopic : Str :=
  ⟨[97, 10, 83, 101, 110, 100, 105, 110, 103, 32, 112, 97, 99, 107, 101, 116, 32, 80, 105, 110, 103, 82, 101, 113, 10],
    by decide⟩

/-- **C84 is violated**: the topic is shown as it is. A message to this topic writes a line into the log that looks like that
of a PINGREQ. -/
theorem C84_forged_line_violated : ∃ (m : Publish) (before after : Bytes), m.topic = forgedTopic ∧
    (Packet.publish m).sendLine = before ++ [10] ++ Packet.pingReq.sendLine ++ [10] ++ after :=
  ⟨⟨false, .atMostOnce, false, forgedTopic, none, .empty, []⟩, text "Sending packet Publish(topic: a",
    text ", qos: AtMostOnce, dup: false, retain: false, packet id: None)", rfl, by decide⟩

end Mqrstt.Props
