import Verif.Model.Property
/-!
# Reason codes

Source: `/repo/mqrstt/src/packets/macros/reason_code_macros.rs` and the lists in
`/repo/mqrstt/src/packets/*/reason_code.rs`.

The macro generates one enum per packet from a list of names. Here there is one type of names and
one list per packet; that a packet holds only codes of its own list (guaranteed by the Rust type)
is part of the predicates on packets in `Verif.Spec`.
-/

namespace Mqrstt

/-- The names that occur in `reason_code_internal!`, reason_code_macros.rs 108-247. -/
inductive Reason where
  | success | normalDisconnection | grantedQoS0 | grantedQoS1 | grantedQoS2
  | disconnectWithWillMessage | noMatchingSubscribers | noSubscriptionExisted
  | continueAuthentication | reAuthenticate | unspecifiedError | malformedPacket
  | protocolError | implementationSpecificError | unsupportedProtocolVersion
  | clientIdentifierNotValid | badUsernameOrPassword | notAuthorized | serverUnavailable
  | serverBusy | banned | serverShuttingDown | badAuthenticationMethod | keepAliveTimeout
  | sessionTakenOver | topicFilterInvalid | topicNameInvalid | packetIdentifierInUse
  | packetIdentifierNotFound | receiveMaximumExceeded | topicAliasInvalid | packetTooLarge
  | messageRateTooHigh | quotaExceeded | administrativeAction | payloadFormatInvalid
  | retainNotSupported | qosNotSupported | useAnotherServer | serverMoved
  | sharedSubscriptionsNotSupported | connectionRateExceeded | maximumConnectTime
  | subscriptionIdentifiersNotSupported | wildcardSubscriptionsNotSupported
  deriving DecidableEq, Repr

namespace Reason

/-- `reason_code_internal!`, reason_code_macros.rs 108-247; `to_u8`, 21-25 -/
def toU8 : Reason → UInt8
  | success => 0x00 | normalDisconnection => 0x00 | grantedQoS0 => 0x00 | grantedQoS1 => 0x01
  | grantedQoS2 => 0x02 | disconnectWithWillMessage => 0x04 | noMatchingSubscribers => 0x10
  | noSubscriptionExisted => 0x11 | continueAuthentication => 0x18 | reAuthenticate => 0x19
  | unspecifiedError => 0x80 | malformedPacket => 0x81 | protocolError => 0x82
  | implementationSpecificError => 0x83 | unsupportedProtocolVersion => 0x84
  | clientIdentifierNotValid => 0x85 | badUsernameOrPassword => 0x86 | notAuthorized => 0x87
  | serverUnavailable => 0x88 | serverBusy => 0x89 | banned => 0x8A | serverShuttingDown => 0x8B
  | badAuthenticationMethod => 0x8C | keepAliveTimeout => 0x8D | sessionTakenOver => 0x8E
  | topicFilterInvalid => 0x8F | topicNameInvalid => 0x90 | packetIdentifierInUse => 0x91
  | packetIdentifierNotFound => 0x92 | receiveMaximumExceeded => 0x93 | topicAliasInvalid => 0x94
  | packetTooLarge => 0x95 | messageRateTooHigh => 0x96 | quotaExceeded => 0x97
  | administrativeAction => 0x98 | payloadFormatInvalid => 0x99 | retainNotSupported => 0x9A
  | qosNotSupported => 0x9B | useAnotherServer => 0x9C | serverMoved => 0x9D
  | sharedSubscriptionsNotSupported => 0x9E | connectionRateExceeded => 0x9F
  | maximumConnectTime => 0xA0 | subscriptionIdentifiersNotSupported => 0xA1
  | wildcardSubscriptionsNotSupported => 0xA2

/-- `from_u8`, reason_code_macros.rs 14-18 with `reason_code_match!`, 68-81: the first listed name with that value;
otherwise `UnknownProperty`. -/
def fromU8 (codes : List Reason) (v : UInt8) : Except DeErr Reason :=
  match codes.find? (fun c => c.toU8 = v) with
  | some c => .ok c
  | none => .error (.unknownProperty v)

/-- `MqttRead::read`, reason_code_macros.rs 36-45 -/
def read (codes : List Reason) : Rd Reason := do
  if (← bufLen) = 0 then Rd.de (.insufficientData 0 1)
  else Rd.lift (fromU8 codes (← getU8))

/-- `MqttAsyncRead::async_read`, reason_code_macros.rs 28-34 -/
def asyncRead (codes : List Reason) : Rd (Reason × Nat) := do
  let input ← aU8
  pure (← Rd.lift (fromU8 codes input), 1)

/-- `MqttWrite::write`, reason_code_macros.rs 56-63 -/
def write (r : Reason) : Wr := .ok [r.toU8]

/-- `MqttAsyncWrite::async_write`, reason_code_macros.rs 47-54 -/
def asyncWrite (r : Reason) : AWr := .ok ([r.toU8], 1)

/-- `AuthReasonCode`, auth/reason_code.rs 1 -/
def auth : List Reason := [success, continueAuthentication, reAuthenticate]

/-- `ConnAckReasonCode`, connack/reason_code.rs 1-25 -/
def connAck : List Reason :=
  [success, unspecifiedError, malformedPacket, protocolError, implementationSpecificError,
   unsupportedProtocolVersion, clientIdentifierNotValid, badUsernameOrPassword, notAuthorized,
   serverUnavailable, serverBusy, banned, badAuthenticationMethod, topicNameInvalid,
   packetTooLarge, quotaExceeded, payloadFormatInvalid, retainNotSupported, qosNotSupported,
   useAnotherServer, serverMoved, connectionRateExceeded]

/-- `DisconnectReasonCode`, disconnect/reason_code.rs 1-32 -/
def disconnect : List Reason :=
  [normalDisconnection, disconnectWithWillMessage, unspecifiedError, malformedPacket,
   protocolError, implementationSpecificError, notAuthorized, serverBusy, serverShuttingDown,
   keepAliveTimeout, sessionTakenOver, topicFilterInvalid, topicNameInvalid,
   receiveMaximumExceeded, topicAliasInvalid, packetTooLarge, messageRateTooHigh, quotaExceeded,
   administrativeAction, payloadFormatInvalid, retainNotSupported, qosNotSupported,
   useAnotherServer, serverMoved, sharedSubscriptionsNotSupported, connectionRateExceeded,
   maximumConnectTime, subscriptionIdentifiersNotSupported, wildcardSubscriptionsNotSupported]

/-- `PubAckReasonCode`, puback/reason_code.rs 1-12 -/
def pubAck : List Reason :=
  [success, noMatchingSubscribers, unspecifiedError, implementationSpecificError, notAuthorized,
   topicNameInvalid, packetIdentifierInUse, quotaExceeded, payloadFormatInvalid]

/-- `PubRecReasonCode`, pubrec/reason_code.rs 1-12 -/
def pubRec : List Reason :=
  [success, noMatchingSubscribers, unspecifiedError, implementationSpecificError, notAuthorized,
   topicNameInvalid, packetIdentifierInUse, quotaExceeded, payloadFormatInvalid]

/-- `PubRelReasonCode`, pubrel/reason_code.rs 1 -/
def pubRel : List Reason := [success, packetIdentifierNotFound]

/-- `PubCompReasonCode`, pubcomp/reason_code.rs 1 -/
def pubComp : List Reason := [success, packetIdentifierNotFound]

/-- `SubAckReasonCode`, suback/reason_code.rs 1-15 -/
def subAck : List Reason :=
  [grantedQoS0, grantedQoS1, grantedQoS2, unspecifiedError, implementationSpecificError,
   notAuthorized, topicFilterInvalid, packetIdentifierInUse, quotaExceeded,
   sharedSubscriptionsNotSupported, subscriptionIdentifiersNotSupported,
   wildcardSubscriptionsNotSupported]

/-- `UnsubAckReasonCode`, unsuback/reason_code.rs 1-10 -/
def unsubAck : List Reason :=
  [success, noSubscriptionExisted, unspecifiedError, implementationSpecificError, notAuthorized,
   topicFilterInvalid, packetIdentifierInUse]

end Reason
end Mqrstt
