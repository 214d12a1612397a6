import Verif.Proof.StatusDrop
import Verif.Props.KeepAliveDrop
/-! # What `run` reports, also after futures have been dropped (C37) -/

namespace Mqrstt.Props
open Mqrstt Mqrstt.Spec _root_.Spec

/-- **C37, tokio**, in every history in which the futures of `run` and `connect` may also be dropped anywhere: the status with which
`run` returns is true. -/
theorem C37_dropped_tokio (o : Options) (t : Nat) (ops : List TokioWireOp) (pre post : List Obs) (st : Status)
    (e : tokioWireTrace o t ops = pre ++ .ended (.status st) :: post) : StatusReason pre st :=
  StatusDrop.tokio o t ops pre post st e

/-- **C37, smol**, also with dropped futures. -/
theorem C37_dropped_smol (checks : Bool) (o : Options) (t : Nat) (ops : List SmolWireOp) (pre post : List Obs) (st : Status)
    (e : smolWireTrace checks o t ops = pre ++ .ended (.status st) :: post) : StatusReason pre st :=
  StatusDrop.smol checks o t ops pre post st e

/-- the user's DISCONNECT after a dropped `run` -/
example : tokioWireTrace resumeOptions 0 (tokioPingCut ++ ([.client (.call userDisconnect), .client (.submit 0),
      .turn .outgoing 0 true (at' (sec 11))] : List TokioOp).map .op) =
    tokioWireTrace resumeOptions 0 tokioPingCut ++ [.user (.called userDisconnect none userDisconnectPacket),
      .user (.submitted userDisconnectPacket), .wrote userDisconnectPacket (sec 11) (sec 11), .ended (.status .outgoingDisconnect)] := rfl

example : smolWireTrace true resumeOptions 0 (smolPingCut ++ ([.client (.call userDisconnect), .client (.submit 0),
      .turn .outgoing true (at' (sec 11))] : List SmolOp).map .op) =
    smolWireTrace true resumeOptions 0 smolPingCut ++ [.user (.called userDisconnect none userDisconnectPacket),
      .user (.submitted userDisconnectPacket), .wrote userDisconnectPacket (sec 11) (sec 11), .ended (.status .outgoingDisconnect)] := rfl

end Mqrstt.Props
