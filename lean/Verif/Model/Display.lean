import Verif.Model.Packet
/-!
# Packets as text

Source: `impl Display for Packet`, `/repo/mqrstt/src/packets/mod.rs` 345-371. With the feature `logs` this text is part of the
log line for every packet written (tokio/stream.rs 57 and 69, smol/stream.rs 130 and 143, state_handler.rs 182).

Text is UTF-8, as bytes. Simplified: `{:?}` of a string leaves characters outside ASCII as they are (Rust also escapes those
that cannot be printed and combining ones).
-/

namespace Mqrstt

/-- ASCII text, the literal parts of packets/mod.rs 348-370 -/
def text (s : String) : Bytes := s.toList.map fun c => UInt8.ofNat c.toNat

/-- `{}` and `{:?}` of a number, packets/mod.rs 351-362 -/
def decimal (n : Nat) : Bytes := (Nat.toDigits 10 n).map fun c => UInt8.ofNat c.toNat

/-- `{}` and `{:?}` of a Boolean, packets/mod.rs 351, 357 -/
def boolText (b : Bool) : Bytes := if b then text "true" else text "false"

/-- `char::escape_debug` as `{:?}` of a string uses it, packets/mod.rs 350 (`username`, `password`). Simplified as
said at the head of this file -/
def escapeByte (b : UInt8) : Bytes :=
  if b = 0 then text "\\0"
  else if b = 9 then text "\\t"
  else if b = 10 then text "\\n"
  else if b = 13 then text "\\r"
  else if b = 34 then text "\\\""
  else if b = 92 then text "\\\\"
  else if b < 32 ∨ b = 127 then text "\\u{" ++ (Nat.toDigits 16 b.toNat).map (fun c => UInt8.ofNat c.toNat) ++ text "}"
  else [b]

/-- `{:?}` of a string, packets/mod.rs 350 -/
def debugStr (s : Str) : Bytes := text "\"" ++ s.bytes.flatMap escapeByte ++ text "\""

/-- `{:?}` of an `Option`, packets/mod.rs 350, 356 -/
def debugOpt {α : Type} (f : α → Bytes) : Option α → Bytes
  | none => text "None"
  | some a => text "Some(" ++ f a ++ text ")"

/-- `{:?}` of a reason code: derived, reason_code_macros.rs 4; the names of `reason_code_internal!`, 108-247 -/
def Reason.name : Reason → String
  | .success => "Success"
  | .normalDisconnection => "NormalDisconnection"
  | .grantedQoS0 => "GrantedQoS0"
  | .grantedQoS1 => "GrantedQoS1"
  | .grantedQoS2 => "GrantedQoS2"
  | .disconnectWithWillMessage => "DisconnectWithWillMessage"
  | .noMatchingSubscribers => "NoMatchingSubscribers"
  | .noSubscriptionExisted => "NoSubscriptionExisted"
  | .continueAuthentication => "ContinueAuthentication"
  | .reAuthenticate => "ReAuthenticate"
  | .unspecifiedError => "UnspecifiedError"
  | .malformedPacket => "MalformedPacket"
  | .protocolError => "ProtocolError"
  | .implementationSpecificError => "ImplementationSpecificError"
  | .unsupportedProtocolVersion => "UnsupportedProtocolVersion"
  | .clientIdentifierNotValid => "ClientIdentifierNotValid"
  | .badUsernameOrPassword => "BadUsernameOrPassword"
  | .notAuthorized => "NotAuthorized"
  | .serverUnavailable => "ServerUnavailable"
  | .serverBusy => "ServerBusy"
  | .banned => "Banned"
  | .serverShuttingDown => "ServerShuttingDown"
  | .badAuthenticationMethod => "BadAuthenticationMethod"
  | .keepAliveTimeout => "KeepAliveTimeout"
  | .sessionTakenOver => "SessionTakenOver"
  | .topicFilterInvalid => "TopicFilterInvalid"
  | .topicNameInvalid => "TopicNameInvalid"
  | .packetIdentifierInUse => "PacketIdentifierInUse"
  | .packetIdentifierNotFound => "PacketIdentifierNotFound"
  | .receiveMaximumExceeded => "ReceiveMaximumExceeded"
  | .topicAliasInvalid => "TopicAliasInvalid"
  | .packetTooLarge => "PacketTooLarge"
  | .messageRateTooHigh => "MessageRateTooHigh"
  | .quotaExceeded => "QuotaExceeded"
  | .administrativeAction => "AdministrativeAction"
  | .payloadFormatInvalid => "PayloadFormatInvalid"
  | .retainNotSupported => "RetainNotSupported"
  | .qosNotSupported => "QosNotSupported"
  | .useAnotherServer => "UseAnotherServer"
  | .serverMoved => "ServerMoved"
  | .sharedSubscriptionsNotSupported => "SharedSubscriptionsNotSupported"
  | .connectionRateExceeded => "ConnectionRateExceeded"
  | .maximumConnectTime => "MaximumConnectTime"
  | .subscriptionIdentifiersNotSupported => "SubscriptionIdentifiersNotSupported"
  | .wildcardSubscriptionsNotSupported => "WildcardSubscriptionsNotSupported"

/-- `{:?}` of `QoS`, primitive/qos.rs 11-17 -/
def QoS.name : QoS → String
  | .atMostOnce => "AtMostOnce"
  | .atLeastOnce => "AtLeastOnce"
  | .exactlyOnce => "ExactlyOnce"

/-- packets/mod.rs 345-371 -/
def Packet.display : Packet → Bytes
  | .connect c =>
    text "Connect(version: V5, clean: " ++ boolText c.cleanStart ++ text ", username: " ++ debugOpt debugStr c.username ++
      text ", password: " ++ debugOpt debugStr c.password ++ text ", keep_alive: " ++ decimal c.keepAlive.toNat ++
      text ", client_id: " ++ c.clientId.bytes ++ text ")"
  | .connAck c =>
    text "ConnAck(session:ConnAckFlags { session_present: " ++ boolText c.sessionPresent ++ text " }, reason code" ++
      text c.reason.name ++ text ")"
  | .publish p =>
    text "Publish(topic: " ++ p.topic.bytes ++ text ", qos: " ++ text p.qos.name ++ text ", dup: " ++ boolText p.dup ++
      text ", retain: " ++ boolText p.retain ++ text ", packet id: " ++
      debugOpt (fun id => decimal (UInt16.toNat id)) p.pkid ++ text ")"
  | .pubAck a => text "PubAck(id:" ++ decimal a.id.toNat ++ text ", reason code: " ++ text a.reason.name ++ text ")"
  | .pubRec a => text "PubRec(id: " ++ decimal a.id.toNat ++ text ", reason code: " ++ text a.reason.name ++ text ")"
  | .pubRel a => text "PubRel(id: " ++ decimal a.id.toNat ++ text ", reason code: " ++ text a.reason.name ++ text ")"
  | .pubComp a => text "PubComp(id: " ++ decimal a.id.toNat ++ text ", reason code: " ++ text a.reason.name ++ text ")"
  | .subscribe _ => text "Subscribe()"
  | .subAck _ => text "SubAck()"
  | .unsubscribe _ => text "Unsubscribe()"
  | .unsubAck _ => text "UnsubAck()"
  | .pingReq => text "PingReq"
  | .pingResp => text "PingResp"
  | .disconnect d => text "Disconnect(reason code: " ++ text d.reason.name ++ text ")"
  | .auth _ => text "Auth()"

/-- the log line for a packet that is written, tokio/stream.rs 57 and 69, smol/stream.rs 130 and 143 -/
def Packet.sendLine (p : Packet) : Bytes := text "Sending packet " ++ p.display

end Mqrstt
