import Verif.Proof.HandlerDrop
import Verif.Props.KeepAliveDrop
/-! # The handler and the acknowledgements, also after futures have been dropped (C38) -/

namespace Mqrstt.Props
open Mqrstt Mqrstt.Spec _root_.Spec

/-- **C38, tokio**, in every history in which the futures of `run` and `connect` may also be dropped anywhere: the handler sees a packet
right after it was read. -/
theorem C38_dropped_in_order_tokio (o : Options) (t : Nat) (ops : List TokioWireOp) (pre post : List Obs) (p : Packet)
    (e : tokioWireTrace o t ops = pre ++ .delivered p :: post) : [.read p] <:+ pre :=
  (HandlerDrop.tokio o t ops _ _ _ e).1 p rfl

/-- **C38, tokio**, also with dropped futures: an acknowledgement is written only right after the handler has seen what it acknowledges
(a PUBREC possibly for a copy of it). -/
theorem C38_dropped_before_ack_tokio (o : Options) (t : Nat) (ops : List TokioWireOp) (pre post : List Obs) (a b : Nat) :
    (∀ r, tokioWireTrace o t ops = pre ++ .wrote (.pubAck r) a b :: post →
      ∃ q : Publish, q.qos = .atLeastOnce ∧ q.pkid = some r.id ∧ [.read (.publish q), .delivered (.publish q)] <:+ pre) ∧
    (∀ r, tokioWireTrace o t ops = pre ++ .wrote (.pubRec r) a b :: post →
      ∃ q : Publish, q.qos = .exactlyOnce ∧ q.pkid = some r.id ∧
        ([.read (.publish q), .delivered (.publish q)] <:+ pre ∨ [.read (.publish q)] <:+ pre)) ∧
    (∀ r, tokioWireTrace o t ops = pre ++ .wrote (.pubComp r) a b :: post →
      ∃ q : Ack, q.id = r.id ∧ [.read (.pubRel q), .delivered (.pubRel q)] <:+ pre) :=
  ⟨fun _ e => (HandlerDrop.tokio o t ops _ _ _ e).2 _ _ _ rfl, fun _ e => (HandlerDrop.tokio o t ops _ _ _ e).2 _ _ _ rfl,
    fun _ e => (HandlerDrop.tokio o t ops _ _ _ e).2 _ _ _ rfl⟩

/-- **C38, smol**, in every history in which the futures of `run` and `connect` may also be dropped anywhere: the handler sees a packet
right after it was read. -/
theorem C38_dropped_in_order_smol (checks : Bool) (o : Options) (t : Nat) (ops : List SmolWireOp) (pre post : List Obs) (p : Packet)
    (e : smolWireTrace checks o t ops = pre ++ .delivered p :: post) : [.read p] <:+ pre :=
  (HandlerDrop.smol checks o t ops _ _ _ e).1 p rfl

/-- **C38, smol**, also with dropped futures: an acknowledgement is written only right after the handler has seen what it acknowledges
(a PUBREC possibly for a copy of it). -/
theorem C38_dropped_before_ack_smol (checks : Bool) (o : Options) (t : Nat) (ops : List SmolWireOp) (pre post : List Obs) (a b : Nat) :
    (∀ r, smolWireTrace checks o t ops = pre ++ .wrote (.pubAck r) a b :: post →
      ∃ q : Publish, q.qos = .atLeastOnce ∧ q.pkid = some r.id ∧ [.read (.publish q), .delivered (.publish q)] <:+ pre) ∧
    (∀ r, smolWireTrace checks o t ops = pre ++ .wrote (.pubRec r) a b :: post →
      ∃ q : Publish, q.qos = .exactlyOnce ∧ q.pkid = some r.id ∧
        ([.read (.publish q), .delivered (.publish q)] <:+ pre ∨ [.read (.publish q)] <:+ pre)) ∧
    (∀ r, smolWireTrace checks o t ops = pre ++ .wrote (.pubComp r) a b :: post →
      ∃ q : Ack, q.id = r.id ∧ [.read (.pubRel q), .delivered (.pubRel q)] <:+ pre) :=
  ⟨fun _ e => (HandlerDrop.smol checks o t ops _ _ _ e).2 _ _ _ rfl, fun _ e => (HandlerDrop.smol checks o t ops _ _ _ e).2 _ _ _ rfl,
    fun _ e => (HandlerDrop.smol checks o t ops _ _ _ e).2 _ _ _ rfl⟩

/-- a QoS 1 message arrives, `run` is dropped in the handler; it arrives again, and is acknowledged -/
example : tokioWireTrace resumeOptions 0 (tokioUp.map .op ++ [.op (.arrive [0x32, 0x06, 0, 1, 97, 0, 1, 0]), .drop .read .handling 0 (at' 2),
      .op .start, .op (.arrive [0x32, 0x06, 0, 1, 97, 0, 1, 0]), .op (.turn .read 0 true (at' 3))]) =
    tokioTrace resumeOptions 0 tokioUp ++ [.read (.publish netMessage), .cancelled, .started, .read (.publish netMessage),
      .delivered (.publish netMessage), .wrote (.pubAck ⟨1, .success, .empty⟩) 3 3] := rfl

example : smolWireTrace true resumeOptions 0 (smolUp.map .op ++ [.drop (.read [0x32, 0x06, 0, 1, 97, 0, 1, 0]) .handling (at' 2),
      .op .start, .op (.turn (.read [0x32, 0x06, 0, 1, 97, 0, 1, 0]) true (at' 3))]) =
    smolTrace true resumeOptions 0 smolUp ++ [.read (.publish netMessage), .cancelled, .started, .read (.publish netMessage),
      .delivered (.publish netMessage), .wrote (.pubAck ⟨1, .success, .empty⟩) 3 3] := rfl

end Mqrstt.Props
