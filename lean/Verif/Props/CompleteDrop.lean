import Verif.Proof.CompleteDrop
import Verif.Props.KeepAliveDrop
/-! # What follows a DISCONNECT, also when futures are dropped (C37) -/

namespace Mqrstt.Props
open Mqrstt Mqrstt.Spec _root_.Spec

/-- **C37, tokio**, in every history in which the futures of `run` and `connect` may also be dropped anywhere: a DISCONNECT that is
read goes to the handler and ends `run` with "incoming disconnect", or makes `connect` fail, unless the user drops `run` while the
handler is at work on it; a DISCONNECT that is written ends `run` with "outgoing disconnect", or with "keep-alive timeout" if it is
the timer's. -/
theorem C37_dropped_complete_tokio (o : Options) (t : Nat) (ops : List TokioWireOp) (pre post : List Obs) (d : ReasonProps) :
    (tokioWireTrace o t ops = pre ++ .read (.disconnect d) :: post →
      [.delivered (.disconnect d), .ended (.status .incomingDisconnect)] <+: post ∨
        [.connectFailed (.notConnAck (.disconnect d))] <+: post ∨ [.cancelled] <+: post) ∧
    (∀ a b, tokioWireTrace o t ops = pre ++ .wrote (.disconnect d) a b :: post →
      [.ended (.status .outgoingDisconnect)] <+: post ∨
        (d = ⟨.keepAliveTimeout, .empty⟩ ∧ [.ended (.status .keepAliveTimeout)] <+: post)) := by
  refine ⟨fun e => (CompleteDrop.tokio o t ops _ _ _ e).1 d rfl, fun a b e => ?_⟩
  refine ((CompleteDrop.tokio o t ops _ _ _ e).2 d a b rfl).imp id fun ⟨h1, h2⟩ => ⟨?_, h2⟩
  simpa [keepAliveDisconnect] using h1

/-- **C37, smol**, also with dropped futures. -/
theorem C37_dropped_complete_smol (checks : Bool) (o : Options) (t : Nat) (ops : List SmolWireOp) (pre post : List Obs)
    (d : ReasonProps) :
    (smolWireTrace checks o t ops = pre ++ .read (.disconnect d) :: post →
      [.delivered (.disconnect d), .ended (.status .incomingDisconnect)] <+: post ∨
        [.connectFailed (.notConnAck (.disconnect d))] <+: post ∨ [.cancelled] <+: post) ∧
    (∀ a b, smolWireTrace checks o t ops = pre ++ .wrote (.disconnect d) a b :: post →
      [.ended (.status .outgoingDisconnect)] <+: post ∨
        (d = ⟨.keepAliveTimeout, .empty⟩ ∧ [.ended (.status .keepAliveTimeout)] <+: post)) := by
  refine ⟨fun e => (CompleteDrop.smol checks o t ops _ _ _ e).1 d rfl, fun a b e => ?_⟩
  refine ((CompleteDrop.smol checks o t ops _ _ _ e).2 d a b rfl).imp id fun ⟨h1, h2⟩ => ⟨?_, h2⟩
  simpa [keepAliveDisconnect] using h1

/-- the user's DISCONNECT is written after a dropped `run` -/
example : tokioWireTrace resumeOptions 0 (tokioPingCut ++ ([.client (.call userDisconnect), .client (.submit 0),
      .turn .outgoing 0 true (at' (sec 11))] : List TokioOp).map .op) =
    (tokioWireTrace resumeOptions 0 tokioPingCut ++ [.user (.called userDisconnect none userDisconnectPacket),
      .user (.submitted userDisconnectPacket)]) ++ .wrote userDisconnectPacket (sec 11) (sec 11) :: [.ended (.status .outgoingDisconnect)] := rfl

/-- the server's DISCONNECT is read, and `run` is dropped while the handler is at work on it -/
example : ∃ pre d, smolWireTrace true resumeOptions 0 (smolPingCut ++ [.drop (.read [0xE0, 0x00]) .handling (at' (sec 12))]) =
    pre ++ .read (.disconnect d) :: [.cancelled] := ⟨smolWireTrace true resumeOptions 0 smolPingCut, _, rfl⟩

end Mqrstt.Props
