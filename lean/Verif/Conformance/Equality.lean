import Verif.Model.System
/-!
# Equality of packets, for the test vectors

Not part of the model or of any statement: the derived `PartialEq` of the packets, needed to compare results.
-/

namespace Mqrstt

/-- all property names -/
def PropertyType.all : List PropertyType :=
  [.payloadFormatIndicator, .messageExpiryInterval, .contentType, .responseTopic, .correlationData,
   .subscriptionIdentifier, .sessionExpiryInterval, .assignedClientIdentifier, .serverKeepAlive,
   .authenticationMethod, .authenticationData, .requestProblemInformation, .willDelayInterval,
   .requestResponseInformation, .responseInformation, .serverReference, .reasonString, .receiveMaximum,
   .topicAliasMaximum, .topicAlias, .maximumQos, .retainAvailable, .userProperty, .maximumPacketSize,
   .wildcardSubscriptionAvailable, .subscriptionIdentifierAvailable, .sharedSubscriptionAvailable]

theorem PropertyType.mem_all (p : PropertyType) : p ∈ all := by cases p <;> decide

instance : (k : Kind) → DecidableEq k.T
  | .u8 => inferInstanceAs (DecidableEq UInt8)
  | .u16 => inferInstanceAs (DecidableEq UInt16)
  | .u32 => inferInstanceAs (DecidableEq UInt32)
  | .str => inferInstanceAs (DecidableEq Str)
  | .bin => inferInstanceAs (DecidableEq Bytes)
  | .var => inferInstanceAs (DecidableEq UInt32)
  | .bool => inferInstanceAs (DecidableEq Bool)
  | .qos => inferInstanceAs (DecidableEq QoS)

/-- `PartialEq` of the property structs -/
def Props.same (P Q : Props) : Bool :=
  PropertyType.all.all (fun p => decide (P.val p = Q.val p)) && P.subIds = Q.subIds && P.users = Q.users

/-- the comparison is equality -/
theorem Props.same_iff (P Q : Props) : P.same Q = true ↔ P = Q := by
  constructor
  · intro h
    simp only [Props.same, Bool.and_eq_true, List.all_eq_true, decide_eq_true_eq] at h
    exact Props.ext (funext fun p => h.1.1 p p.mem_all) h.1.2 h.2
  · rintro rfl; simp [Props.same]

instance : BEq Props := ⟨Props.same⟩

deriving instance BEq for Publish
deriving instance BEq for Subscribe
deriving instance BEq for Unsubscribe
deriving instance BEq for Ack
deriving instance BEq for CodesAck
deriving instance BEq for LastWill
deriving instance BEq for Connect
deriving instance BEq for ConnAck
deriving instance BEq for ReasonProps
deriving instance BEq for Packet
deriving instance BEq for Except
deriving instance BEq for Request
deriving instance BEq for Event

/-- a string literal of the tests -/
def txt (x : String) : Str :=
  if h : validUtf8 x.toUTF8.data.toList = true then ⟨x.toUTF8.data.toList, h⟩ else .empty

/-- a byte string literal of the tests -/
def raw (x : String) : Bytes := x.toUTF8.data.toList

end Mqrstt
