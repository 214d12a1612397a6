import Verif.Spec.Exceptions
/-!
# Concrete packets used as examples and counterexamples, with proofs that they are well-formed
-/

namespace Mqrstt.Witness
open Mqrstt Spec

/-- the string `a` -/
def strA : Str := ⟨[97], by decide⟩

/-- the string `é` -/
def strE : Str := ⟨[195, 169], by decide⟩

instance (s : Str) : Decidable (StrOk s) := inferInstanceAs (Decidable (_ ≤ _))

/-- well-formedness of concrete property sets -/
macro "props_wf" "[" ds:ident,* "]" : tactic => `(tactic|
  (constructor
   · intro p; cases p <;> simp [$[$ds:ident],*, Props.empty, Props.set]
   · simp [$[$ds:ident],*, Props.empty, Props.set]
   · simp [$[$ds:ident],*, Props.empty, Props.set]
   · intro p; cases p <;>
      simp [$[$ds:ident],*, Props.empty, Props.set, ValueOk, PropertyType.kind, strA, strE]
   · simp [$[$ds:ident],*, Props.empty, Props.set]
   · simp [$[$ds:ident],*, Props.empty, Props.set, StrOk, strA, strE]
   · simp [$[$ds:ident],*, Props.empty, Props.set]))

theorem wf_empty (es : List Entry) : PropsWF es .empty := by
  constructor <;> simp [Props.empty]

/-- PUBREC for packet 1 saying "no matching subscribers" -/
def shortRec : Packet := .pubRec ⟨1, .noMatchingSubscribers, .empty⟩

theorem shortRec_wf : WF shortRec := ⟨by decide, wf_empty _⟩

def formatProps : Props := Props.empty.set .payloadFormatIndicator (1 : UInt8)

/-- CONNECT whose last will says its payload is UTF-8 text -/
def connectFormat : Packet :=
  .connect ⟨true, some ⟨.atMostOnce, false, formatProps, strA, []⟩, none, none, 60, .empty, strA⟩

theorem connectFormat_wf : WF connectFormat := by
  refine ⟨wf_empty _, by decide, ?_, by simp, by simp⟩
  rintro w ⟨⟩
  exact ⟨by props_wf [formatProps, willEntries], by decide, by decide⟩

def emptyAuthProps : Props :=
  (Props.empty.set .authenticationMethod strA).set .authenticationData ([] : Bytes)

/-- AUTH with empty authentication data -/
def authEmpty : Packet := .auth ⟨.success, emptyAuthProps⟩

theorem authEmpty_wf : WF authEmpty := ⟨by decide, by props_wf [emptyAuthProps, authEntries]⟩

/-- CONNACK with empty authentication data -/
def connAckEmptyAuth : Packet := .connAck ⟨false, .success, emptyAuthProps⟩

theorem connAckEmptyAuth_wf : WF connAckEmptyAuth :=
  ⟨by decide, by props_wf [emptyAuthProps, connAckEntries]⟩

def assignedProps : Props := Props.empty.set .assignedClientIdentifier strA

/-- CONNACK with an assigned client identifier -/
def connAckAssigned : Packet := .connAck ⟨false, .success, assignedProps⟩

theorem connAckAssigned_wf : WF connAckAssigned :=
  ⟨by decide, by props_wf [assignedProps, connAckEntries]⟩

def refProps : Props := Props.empty.set .serverReference strA

/-- DISCONNECT with a server reference -/
def disconnectRef : Packet := .disconnect ⟨.useAnotherServer, refProps⟩

theorem disconnectRef_wf : WF disconnectRef :=
  ⟨by decide, by props_wf [refProps, disconnectEntries]⟩

def plainOptions : SubOptions := ⟨.zero, false, false, .atLeastOnce⟩

/-- SUBSCRIBE to two topics -/
def subscribe2 : Packet := .subscribe ⟨1, .empty, [(strA, plainOptions), (strE, plainOptions)]⟩

theorem subscribe2_wf : WF subscribe2 := by
  refine ⟨wf_empty _, by simp, ?_⟩
  simp [StrOk, strA, strE]

def publishProps : Props :=
  { ((Props.empty.set .messageExpiryInterval (7 : UInt32)).set .responseTopic strE) with
    subIds := [3, 300], users := [(strA, strE)] }

/-- a QoS 1 PUBLISH with several properties -/
def publish1 : Packet :=
  .publish ⟨false, .atLeastOnce, true, strE, some 7, publishProps, [1, 2, 3]⟩

theorem publish1_wf : WF publish1 := by
  refine ⟨by decide, by decide, ?_⟩
  constructor
  · intro p; cases p <;> simp [publishProps, publishEntries, Props.empty, Props.set]
  · simp [publishProps, publishEntries]
  · simp [publishProps, publishEntries]
  · intro p; cases p <;> simp [publishProps, Props.empty, Props.set, ValueOk, PropertyType.kind, strE]
  · simp [publishProps]
  · simp [publishProps, StrOk, strA, strE]
  · simp [publishProps, Props.empty, Props.set]

def willProps : Props := Props.empty.set .willDelayInterval (7 : UInt32)

def authProps : Props :=
  (Props.empty.set .authenticationMethod strA).set .authenticationData ([1] : Bytes)

/-- CONNECT with a will, user name, password and authentication data -/
def connect1 : Packet :=
  .connect ⟨true, some ⟨.exactlyOnce, true, willProps, strA, [9]⟩, some strE, some strA, 60,
    authProps, strA⟩

theorem connect1_wf : WF connect1 := by
  refine ⟨by props_wf [authProps, connectEntries], by decide, ?_, ?_, ?_⟩
  · rintro w ⟨⟩
    exact ⟨by props_wf [willProps, willEntries], by decide, by decide⟩
  · rintro s ⟨⟩; decide
  · rintro s ⟨⟩; decide

/-- none of the classes of `Spec/Exceptions.lean` -/
theorem connect1_plain : ¬ EmptyAuthData connect1 ∧ ¬ HasAssignedId connect1 ∧
    ¬ HasServerRef connect1 ∧ ¬ WillWithFormat connect1 ∧ ¬ ShortAck connect1 ∧
    ¬ ManyTopics connect1 := by
  simp [EmptyAuthData, HasAssignedId, HasServerRef, WillWithFormat, ShortAck, ManyTopics, connect1,
    propSets, authProps, willProps, Props.set, Props.empty]

theorem publish1_plain : ¬ EmptyAuthData publish1 ∧ ¬ HasAssignedId publish1 ∧
    ¬ HasServerRef publish1 ∧ ¬ WillWithFormat publish1 ∧ ¬ ShortAck publish1 ∧
    ¬ ManyTopics publish1 := by
  simp [EmptyAuthData, HasAssignedId, HasServerRef, WillWithFormat, ShortAck, ManyTopics, publish1,
    propSets, publishProps, Props.set, Props.empty]

end Mqrstt.Witness
