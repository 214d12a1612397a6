import Verif.Model.Display
import Verif.Model.Net
/-!
# Errors as text

Source: `/repo/mqrstt/src/error.rs` and `/repo/mqrstt/src/packets/error.rs`: the attributes `#[error("...")]`, from which
`thiserror` derives `Display`, and the derived `Debug` of `HandlerError`.

The model of errors leaves out some of what they hold (the text of an I/O error, of `MalformedPacketWithInfo` and of a
`FromUtf8Error`, the name of a type, `{:?}` of a packet). Here it is an argument, `info`: the text of that part, if the error has
one.
-/

namespace Mqrstt

/-- `{:?}` and `{}` of a packet type: derived, packets/mod.rs 398-415, and 440-444 -/
def PacketType.name : PacketType → String
  | .connect => "Connect"
  | .connAck => "ConnAck"
  | .publish => "Publish"
  | .pubAck => "PubAck"
  | .pubRec => "PubRec"
  | .pubRel => "PubRel"
  | .pubComp => "PubComp"
  | .subscribe => "Subscribe"
  | .subAck => "SubAck"
  | .unsubscribe => "Unsubscribe"
  | .unsubAck => "UnsubAck"
  | .pingReq => "PingReq"
  | .pingResp => "PingResp"
  | .disconnect => "Disconnect"
  | .auth => "Auth"

/-- `{:?}` of a property type: derived, primitive/property_type.rs 10-39 -/
def PropertyType.name : PropertyType → String
  | .payloadFormatIndicator => "PayloadFormatIndicator"
  | .messageExpiryInterval => "MessageExpiryInterval"
  | .contentType => "ContentType"
  | .responseTopic => "ResponseTopic"
  | .correlationData => "CorrelationData"
  | .subscriptionIdentifier => "SubscriptionIdentifier"
  | .sessionExpiryInterval => "SessionExpiryInterval"
  | .assignedClientIdentifier => "AssignedClientIdentifier"
  | .serverKeepAlive => "ServerKeepAlive"
  | .authenticationMethod => "AuthenticationMethod"
  | .authenticationData => "AuthenticationData"
  | .requestProblemInformation => "RequestProblemInformation"
  | .willDelayInterval => "WillDelayInterval"
  | .requestResponseInformation => "RequestResponseInformation"
  | .responseInformation => "ResponseInformation"
  | .serverReference => "ServerReference"
  | .reasonString => "ReasonString"
  | .receiveMaximum => "ReceiveMaximum"
  | .topicAliasMaximum => "TopicAliasMaximum"
  | .topicAlias => "TopicAlias"
  | .maximumQos => "MaximumQos"
  | .retainAvailable => "RetainAvailable"
  | .userProperty => "UserProperty"
  | .maximumPacketSize => "MaximumPacketSize"
  | .wildcardSubscriptionAvailable => "WildcardSubscriptionAvailable"
  | .subscriptionIdentifierAvailable => "SubscriptionIdentifierAvailable"
  | .sharedSubscriptionAvailable => "SharedSubscriptionAvailable"

/-- `{:b}` of a number, packets/error.rs 31 -/
def binary (n : Nat) : Bytes := (Nat.toDigits 2 n).map fun c => UInt8.ofNat c.toNat

/-- `DeserializeError`, packets/error.rs 23-69 -/
def DeErr.display (info : Bytes) : DeErr → Bytes
  | .malformedPacketWithInfo => text "Malformed packet: " ++ info
  | .malformedPacket => text "Malformed packet"
  | .unknownFixedHeader b => text "Malformed FixedHeader " ++ binary b.toNat
  | .unsupportedProtocolVersion => text "Unsupported protocol version"
  | .unknownProtocolVersion => text "Unknown protocol version"
  | .insufficientData available needed =>
    text "There is insufficient for " ++ info ++ text " data (" ++ decimal available ++ text ") to take " ++ decimal needed ++
      text " bytes"
  | .insufficientDataForProtocolVersion => text "There is insufficient to read the protocol version."
  | .remainingDataError read remainingLength =>
    text "While reading a packet " ++ decimal read ++
      text " bytes was read, but the packet indicated a remaining length of " ++ decimal remainingLength ++ text " bytes"
  | .duplicateProperty p => text "Property field " ++ text p.name ++ text " was found at least twice"
  | .unexpectedProperty p k => text "Property type " ++ text p.name ++ text " is not allowed for packet type " ++ text k.name
  | .unknownProperty b => text "Property with id " ++ decimal b.toNat ++ text " is unknown."
  | .unknownQoS b => text "Encountered an QoS higher than 2, namely " ++ decimal b.toNat
  | .utf8Error => text "Encountered an error when reading in a UTF-8 string. " ++ info

/-- `SerializeError`, packets/error.rs 86-96 -/
def SerErr.display : SerErr → Bytes
  | .variableIntegerOverflow n => text "Can not write " ++ decimal n ++ text " in a 4 byte variable integer."
  | .authDataWithoutAuthMethod => text "Authentication data without authentication method"

/-- `HandlerError`, error.rs 65-90 -/
def HErr.display : HErr → Bytes
  | .missingPacketId => text "Missing Packet ID"
  | .packetIdChannelError id => text "Packet Id Channel error, pkid: " ++ decimal id.toNat
  | .packetIdCollision id => text "Packet collision error. packet ID: " ++ decimal id.toNat
  | .unsolicited id _ => text "Received unsolicited ack pkid: " ++ decimal id.toNat
  | .unexpectedPacket t => text "Received an unexpected packet: " ++ text t.name

/-- `{:?}` of `HandlerError`: derived, error.rs 64 -/
def HErr.debug : HErr → Bytes
  | .missingPacketId => text "MissingPacketId"
  | .packetIdChannelError id => text "PacketIdChannelError(" ++ decimal id.toNat ++ text ")"
  | .packetIdCollision id => text "PacketIdCollision(" ++ decimal id.toNat ++ text ")"
  | .unsolicited id t => text "Unsolicited(" ++ decimal id.toNat ++ text ", " ++ text t.name ++ text ")"
  | .unexpectedPacket t => text "UnexpectedPacket(" ++ text t.name ++ text ")"

/-- `ConnectionError`, error.rs 11-43; `RecvError` is "receiving from an empty and closed channel" (async-channel) -/
def ConnErr.display (info : Bytes) : ConnErr → Bytes
  | .noNetwork => text "No network connection"
  | .noOutgoingPacketSender => text "No outgoing packet sender: " ++ text "receiving from an empty and closed channel"
  | .deserialization e => text "Deserialization error: " ++ e.display info
  | .serialization e => text "Serialization error: " ++ e.display
  | .io => text "I/O: " ++ info
  | .refused r => text "Connection refused, return code: " ++ text r.name
  | .notConnAck _ => text "Expected ConnAck packet, received: " ++ info
  | .handler e => text "Handler Error: " ++ e.debug

/-- `PacketValidationError`, error.rs 107-113 -/
def ValidationErr.display : ValidationErr → Bytes
  | .maxPacketSize n => text "Packet size is larger than allowed " ++ decimal n
  | .topicSize n => text "Topic too large: " ++ decimal n

/-- `ClientError`, error.rs 98-104 -/
def ClientErr.display : ClientErr → Bytes
  | .noNetworkChannel => text "Internal network channel is closed"
  | .validation e => text "Packet validation error: " ++ e.display

end Mqrstt
