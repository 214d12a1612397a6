import Verif.Model.ErrorText
import Verif.Proof.Shown
/-!
# Reading the text of an error back
-/

namespace Mqrstt
open Mqrstt.Spec

/-- two texts do not differ where both have a byte -/
def agree : Bytes → Bytes → Bool
  | a :: as, b :: bs => a == b && agree as bs
  | _, _ => true

theorem agree_of : ∀ {a b x y : Bytes}, a ++ x = b ++ y → agree a b = true
  | [], _, _, _, _ => by simp [agree]
  | _ :: _, [], _, _, _ => by simp [agree]
  | a :: as, b :: bs, x, y, h => by
    simp only [List.cons_append, List.cons.injEq] at h
    simp only [agree, h.1, beq_self_eq_true, agree_of h.2, Bool.and_self]

theorem digits_inj {b : Nat} (h1 : 1 < b) (h2 : b ≤ 10) {n m : Nat}
    (h : (Nat.toDigits b n).map (fun c => UInt8.ofNat c.toNat) = (Nat.toDigits b m).map (fun c => UInt8.ofNat c.toNat)) : n = m := by
  have : Nat.toDigits b n = Nat.toDigits b m := by
    refine map_inj_on (P := fun c => c.isDigit = true) ?_ (fun c hc => Nat.isDigit_of_mem_toDigits (by omega) h2 hc)
      (fun c hc => Nat.isDigit_of_mem_toDigits (by omega) h2 hc) h
    intro a b ha hb e
    simp only [Char.isDigit, ge_iff_le, Bool.and_eq_true, decide_eq_true_eq] at ha hb
    have a1 : a.toNat ≤ 57 := ha.2
    have b1 : b.toNat ≤ 57 := hb.2
    have e := congrArg UInt8.toNat e
    simp only [UInt8.toNat_ofNat'] at e
    have : a.toNat = b.toNat := by omega
    exact Char.ext (UInt32.toNat_inj.1 this)
  rw [← Nat.ofDigitChars_toDigits h1 h2 (n := n), this, Nat.ofDigitChars_toDigits h1 h2]

theorem binary_inj {n m : Nat} (h : binary n = binary m) : n = m := digits_inj (by decide) (by decide) h

/-! ## Names -/

def PacketType.every : List PacketType :=
  [.connect, .connAck, .publish, .pubAck, .pubRec, .pubRel, .pubComp, .subscribe, .subAck, .unsubscribe, .unsubAck, .pingReq,
    .pingResp, .disconnect, .auth]

def PacketType.named (bs : Bytes) : Option PacketType := PacketType.every.find? fun t => text t.name == bs

theorem PacketType.named_name (t : PacketType) : PacketType.named (text t.name) = some t := by cases t <;> decide

theorem packetType_name_inj {t u : PacketType} (h : text t.name = text u.name) : t = u :=
  Option.some.inj (by rw [← PacketType.named_name t, h, PacketType.named_name])

def PropertyType.every : List PropertyType :=
  [.payloadFormatIndicator, .messageExpiryInterval, .contentType, .responseTopic, .correlationData, .subscriptionIdentifier,
    .sessionExpiryInterval, .assignedClientIdentifier, .serverKeepAlive, .authenticationMethod, .authenticationData,
    .requestProblemInformation, .willDelayInterval, .requestResponseInformation, .responseInformation, .serverReference,
    .reasonString, .receiveMaximum, .topicAliasMaximum, .topicAlias, .maximumQos, .retainAvailable, .userProperty,
    .maximumPacketSize, .wildcardSubscriptionAvailable, .subscriptionIdentifierAvailable, .sharedSubscriptionAvailable]

def PropertyType.named (bs : Bytes) : Option PropertyType := PropertyType.every.find? fun t => text t.name == bs

theorem PropertyType.named_name (t : PropertyType) : PropertyType.named (text t.name) = some t := by cases t <;> decide

theorem propertyType_name_inj {t u : PropertyType} (h : text t.name = text u.name) : t = u :=
  Option.some.inj (by rw [← PropertyType.named_name t, h, PropertyType.named_name])

theorem propertyType_delim {t u : PropertyType} {x y : Bytes} (h : text t.name ++ 32 :: x = text u.name ++ 32 :: y) :
    t = u ∧ x = y := by
  have key : ∀ t : PropertyType, ∀ b ∈ text t.name, b ≠ 32 := by intro t; cases t <;> decide
  obtain ⟨h1, h2⟩ := delim_inj (P := (· ≠ 32)) (key t) (key u) (by simp) (by simp) h
  exact ⟨propertyType_name_inj h1, by simpa using h2⟩

theorem packetType_delim {t u : PacketType} {x y : Bytes} (h : text t.name ++ 41 :: x = text u.name ++ 41 :: y) :
    t = u ∧ x = y := by
  have key : ∀ t : PacketType, ∀ b ∈ text t.name, b ≠ 41 := by intro t; cases t <;> decide
  obtain ⟨h1, h2⟩ := delim_inj (P := (· ≠ 41)) (key t) (key u) (by simp) (by simp) h
  exact ⟨packetType_name_inj h1, by simpa using h2⟩

theorem u8_inj {a b : UInt8} (h : a.toNat = b.toNat) : a = b := UInt8.toNat_inj.1 h
theorem u16_inj {a b : UInt16} (h : a.toNat = b.toNat) : a = b := UInt16.toNat_inj.1 h

/-- two numbers at the end of a text -/
theorem last_numbers {i j : Bytes} {a b c d : Nat}
    (h : i ++ 40 :: (decimal a ++ (text ") to take " ++ (decimal b ++ text " bytes"))) =
      j ++ 40 :: (decimal c ++ (text ") to take " ++ (decimal d ++ text " bytes")))) : a = c ∧ b = d := by
  have hr := congrArg List.reverse h
  simp only [List.reverse_append, List.reverse_cons, List.append_assoc] at hr
  have hr := List.append_cancel_left hr
  have dr : ∀ n, ∀ e ∈ (decimal n).reverse, IsDigit e := fun n e he => digits_range n e (List.mem_reverse.mp he)
  have e1 : (text ") to take ").reverse = 32 :: (text ") to take").reverse := by decide
  rw [e1] at hr
  obtain ⟨h1, h2⟩ := delim_inj (dr b) (dr d) (by decide) (by decide) hr
  have h2 := List.append_cancel_left (List.cons.inj h2).2
  obtain ⟨h3, -⟩ := delim_inj (c := 40) (d := 40) (dr a) (dr c) (by decide) (by decide) h2
  exact ⟨decimal_inj (List.reverse_inj.mp h3), decimal_inj (List.reverse_inj.mp h1)⟩

/-! ## Errors -/

/-- how the text of a decoding error begins -/
def DeErr.lead : DeErr → Bytes
  | .malformedPacketWithInfo => text "Malformed packet: "
  | .malformedPacket => text "Malformed packet"
  | .unknownFixedHeader _ => text "Malformed FixedHeader "
  | .unsupportedProtocolVersion => text "Unsupported protocol version"
  | .unknownProtocolVersion => text "Unknown protocol version"
  | .insufficientData _ _ => text "There is insufficient for "
  | .insufficientDataForProtocolVersion => text "There is insufficient to read the protocol version."
  | .remainingDataError _ _ => text "While reading a packet "
  | .duplicateProperty _ => text "Property field "
  | .unexpectedProperty _ _ => text "Property type "
  | .unknownProperty _ => text "Property with id "
  | .unknownQoS _ => text "Encountered an QoS higher than 2, namely "
  | .utf8Error => text "Encountered an error when reading in a UTF-8 string. "

theorem DeErr.display_lead (info : Bytes) (e : DeErr) : ∃ x, e.display info = e.lead ++ x := by
  cases e <;> simp only [DeErr.display, DeErr.lead, List.append_assoc]
  all_goals first
    | exact ⟨_, rfl⟩
    | exact ⟨[], (List.append_nil _).symm⟩

theorem deErr_inj {i j : Bytes} {e f : DeErr} (h : e.display i = f.display j) : e = f := by
  have ha : agree e.lead f.lead = true := by
    obtain ⟨x, hx⟩ := e.display_lead i
    obtain ⟨y, hy⟩ := f.display_lead j
    exact agree_of (by rw [← hx, ← hy, h])
  have hlen := congrArg List.length h
  cases e <;> cases f <;> first | (exact absurd ha (by simp only [DeErr.lead]; decide)) | skip
  all_goals simp only [DeErr.display, List.append_assoc] at h
  all_goals first | rfl | skip
  case malformedPacketWithInfo.malformedPacket =>
    simp only [DeErr.display, List.length_append] at hlen
    have : (text "Malformed packet: ").length = (text "Malformed packet").length + 2 := by decide
    omega
  case malformedPacket.malformedPacketWithInfo =>
    simp only [DeErr.display, List.length_append] at hlen
    have : (text "Malformed packet: ").length = (text "Malformed packet").length + 2 := by decide
    omega
  case unknownFixedHeader.unknownFixedHeader a b =>
    rw [u8_inj (binary_inj (List.append_cancel_left h))]
  case insufficientData.insufficientData a b c d =>
    have h := List.append_cancel_left h
    have e1 : text " data (" = text " data " ++ [40] := by decide
    rw [e1] at h
    obtain ⟨rfl, rfl⟩ := last_numbers (i := i ++ text " data ") (j := j ++ text " data ") (by simpa using h)
    rfl
  case remainingDataError.remainingDataError a b c d =>
    obtain ⟨h1, h2⟩ := decimal_delim (c := 32) (d := 32) (by decide) (by decide) (List.append_cancel_left h)
    have h3 := List.append_cancel_left (as := text " bytes was read, but the packet indicated a remaining length of ") h2
    obtain ⟨h4, -⟩ := decimal_delim (c := 32) (d := 32) (by decide) (by decide) h3
    rw [h1, h4]
  case duplicateProperty.duplicateProperty p q =>
    rw [(propertyType_delim (List.append_cancel_left h)).1]
  case unexpectedProperty.unexpectedProperty p k q l =>
    obtain ⟨h1, h2⟩ := propertyType_delim (List.append_cancel_left h)
    rw [h1, packetType_name_inj (List.append_cancel_left (as := text "is not allowed for packet type ") h2)]
  case unknownProperty.unknownProperty a b =>
    obtain ⟨h, -⟩ := decimal_delim (c := 32) (d := 32) (by decide) (by decide) (List.append_cancel_left h)
    rw [u8_inj h]
  case unknownQoS.unknownQoS a b =>
    rw [u8_inj (decimal_inj (List.append_cancel_left h))]

theorem serErr_inj {e f : SerErr} (h : e.display = f.display) : e = f := by
  cases e <;> cases f <;> simp only [SerErr.display, List.append_assoc] at h
  case variableIntegerOverflow.variableIntegerOverflow a b =>
    obtain ⟨rfl, -⟩ := decimal_delim (c := 32) (d := 32) (by decide) (by decide) (List.append_cancel_left h)
    rfl
  case authDataWithoutAuthMethod.authDataWithoutAuthMethod => rfl
  case variableIntegerOverflow.authDataWithoutAuthMethod a =>
    exact absurd (agree_of (y := []) (h.trans (List.append_nil _).symm)) (by decide)
  case authDataWithoutAuthMethod.variableIntegerOverflow a =>
    exact absurd (agree_of (y := []) (h.symm.trans (List.append_nil _).symm)) (by decide)

/-- how `{:?}` of an error of the session begins -/
def HErr.lead : HErr → Bytes
  | .missingPacketId => text "MissingPacketId"
  | .packetIdChannelError _ => text "PacketIdChannelError("
  | .packetIdCollision _ => text "PacketIdCollision("
  | .unsolicited _ _ => text "Unsolicited("
  | .unexpectedPacket _ => text "UnexpectedPacket("

theorem HErr.debug_lead (e : HErr) : ∃ x, e.debug = e.lead ++ x := by
  cases e <;> simp only [HErr.debug, HErr.lead, List.append_assoc]
  all_goals first
    | exact ⟨_, rfl⟩
    | exact ⟨[], (List.append_nil _).symm⟩

theorem hErr_debug_inj {e f : HErr} (h : e.debug = f.debug) : e = f := by
  have ha : agree e.lead f.lead = true := by
    obtain ⟨x, hx⟩ := e.debug_lead
    obtain ⟨y, hy⟩ := f.debug_lead
    exact agree_of (by rw [← hx, ← hy, h])
  cases e <;> cases f <;> first | (exact absurd ha (by simp only [HErr.lead]; decide)) | skip
  all_goals simp only [HErr.debug, List.append_assoc] at h
  all_goals first | rfl | skip
  case packetIdChannelError.packetIdChannelError a b =>
    obtain ⟨h, -⟩ := decimal_delim (c := 41) (d := 41) (by decide) (by decide) (List.append_cancel_left h)
    rw [u16_inj h]
  case packetIdCollision.packetIdCollision a b =>
    obtain ⟨h, -⟩ := decimal_delim (c := 41) (d := 41) (by decide) (by decide) (List.append_cancel_left h)
    rw [u16_inj h]
  case unsolicited.unsolicited a t b u =>
    obtain ⟨h1, h⟩ := decimal_delim (c := 44) (d := 44) (by decide) (by decide) (List.append_cancel_left h)
    have h := List.append_cancel_left (as := text ", ") h
    rw [u16_inj h1, (packetType_delim h).1]
  case unexpectedPacket.unexpectedPacket t u =>
    rw [(packetType_delim (List.append_cancel_left h)).1]

def HErr.displayLead : HErr → Bytes
  | .missingPacketId => text "Missing Packet ID"
  | .packetIdChannelError _ => text "Packet Id Channel error, pkid: "
  | .packetIdCollision _ => text "Packet collision error. packet ID: "
  | .unsolicited _ _ => text "Received unsolicited ack pkid: "
  | .unexpectedPacket _ => text "Received an unexpected packet: "

theorem HErr.display_lead (e : HErr) : ∃ x, e.display = e.displayLead ++ x := by
  cases e <;> simp only [HErr.display, HErr.displayLead]
  all_goals first
    | exact ⟨_, rfl⟩
    | exact ⟨[], (List.append_nil _).symm⟩

theorem hErr_display_inj {e f : HErr} (h : e.display = f.display) :
    e = f ∨ ∃ id t u, e = .unsolicited id t ∧ f = .unsolicited id u := by
  have ha : agree e.displayLead f.displayLead = true := by
    obtain ⟨x, hx⟩ := e.display_lead
    obtain ⟨y, hy⟩ := f.display_lead
    exact agree_of (by rw [← hx, ← hy, h])
  cases e <;> cases f <;> first | (exact absurd ha (by simp only [HErr.displayLead]; decide)) | skip
  all_goals simp only [HErr.display] at h
  case missingPacketId.missingPacketId => exact .inl rfl
  case packetIdChannelError.packetIdChannelError a b =>
    exact .inl (by rw [u16_inj (decimal_inj (List.append_cancel_left h))])
  case packetIdCollision.packetIdCollision a b =>
    exact .inl (by rw [u16_inj (decimal_inj (List.append_cancel_left h))])
  case unsolicited.unsolicited a t b u =>
    obtain rfl := u16_inj (decimal_inj (List.append_cancel_left h))
    exact .inr ⟨_, _, _, rfl, rfl⟩
  case unexpectedPacket.unexpectedPacket t u =>
    exact .inl (by rw [packetType_name_inj (List.append_cancel_left h)])

/-- how the text of an error of `run` or `connect` begins -/
def ConnErr.lead : ConnErr → Bytes
  | .noNetwork => text "No network connection"
  | .noOutgoingPacketSender => text "No outgoing packet sender: "
  | .deserialization _ => text "Deserialization error: "
  | .serialization _ => text "Serialization error: "
  | .io => text "I/O: "
  | .refused _ => text "Connection refused, return code: "
  | .notConnAck _ => text "Expected ConnAck packet, received: "
  | .handler _ => text "Handler Error: "

theorem ConnErr.display_lead (info : Bytes) (e : ConnErr) : ∃ x, e.display info = e.lead ++ x := by
  cases e <;> simp only [ConnErr.display, ConnErr.lead]
  all_goals first
    | exact ⟨_, rfl⟩
    | exact ⟨[], (List.append_nil _).symm⟩

theorem connErr_inj {i j : Bytes} {e f : ConnErr} (h : e.display i = f.display j) :
    e = f ∨ ∃ p q, e = .notConnAck p ∧ f = .notConnAck q := by
  have ha : agree e.lead f.lead = true := by
    obtain ⟨x, hx⟩ := e.display_lead i
    obtain ⟨y, hy⟩ := f.display_lead j
    exact agree_of (by rw [← hx, ← hy, h])
  cases e <;> cases f <;> first | (exact absurd ha (by simp only [ConnErr.lead]; decide)) | skip
  all_goals simp only [ConnErr.display] at h
  all_goals first | exact .inl rfl | skip
  case deserialization.deserialization a b => exact .inl (by rw [deErr_inj (List.append_cancel_left h)])
  case serialization.serialization a b => exact .inl (by rw [serErr_inj (List.append_cancel_left h)])
  case refused.refused a b => exact .inl (by rw [reason_name_inj (List.append_cancel_left h)])
  case notConnAck.notConnAck a b => exact .inr ⟨_, _, rfl, rfl⟩
  case handler.handler a b => exact .inl (by rw [hErr_debug_inj (List.append_cancel_left h)])

theorem validationErr_inj {e f : ValidationErr} (h : e.display = f.display) : e = f := by
  cases e <;> cases f <;> simp only [ValidationErr.display] at h
  case maxPacketSize.maxPacketSize a b => rw [decimal_inj (List.append_cancel_left h)]
  case topicSize.topicSize a b => rw [decimal_inj (List.append_cancel_left h)]
  all_goals exact absurd (agree_of h) (by decide)

theorem clientErr_inj {e f : ClientErr} (h : e.display = f.display) : e = f := by
  cases e <;> cases f <;> simp only [ClientErr.display] at h
  case noNetworkChannel.noNetworkChannel => rfl
  case validation.validation a b => rw [validationErr_inj (List.append_cancel_left h)]
  case noNetworkChannel.validation a =>
    exact absurd (agree_of (y := []) (h.symm.trans (List.append_nil _).symm)) (by decide)
  case validation.noNetworkChannel a =>
    exact absurd (agree_of (y := []) (h.trans (List.append_nil _).symm)) (by decide)

end Mqrstt
