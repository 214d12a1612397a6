import Verif.Spec.Bytes
import Verif.Spec.Progress
/-! # Endless schedules that do not neglect what arrives (C104) -/

namespace Mqrstt.Spec

/-- a packet that has arrived completely waits to be read -/
def PacketWaits (R : Bytes → Packet → Bytes → Prop) (r : Rx) : Prop := ∃ p rest, Stream R r.bytes (r.packets ++ [p]) rest

/-- a step in which the loop reads -/
def readsTokio : TokioOp → Prop
  | .turn .read _ _ _ => True
  | _ => False

/-- a step in which the loop reads; smol hands over the bytes that arrive in such a step -/
def readsSmol : SmolOp → Prop
  | .turn (.read _) _ _ => True
  | _ => False

/-- the schedule does not neglect the connection for ever: whenever a packet waits to be read, at some later point the loop
takes the branch that reads -/
def HearsTokio (o : Options) (t : Nat) (sched : Nat → TokioOp) : Prop :=
  ∀ n, PacketWaits StreamPacket (tokioRx o t (upTo sched n)) →
    ∃ m, n ≤ m ∧ readsTokio (sched m) ∧ ((tokio o t (upTo sched m)).step (sched m)).isSome

/-- the same for smol. In this branch it waits for bytes first, so the server has to send more -/
def HearsSmol (checks : Bool) (o : Options) (t : Nat) (sched : Nat → SmolOp) : Prop :=
  ∀ n, PacketWaits BufferPacket (smolRx checks o t (upTo sched n)) →
    ∃ m, n ≤ m ∧ readsSmol (sched m) ∧ ((smol checks o t (upTo sched m)).step (sched m)).isSome

end Mqrstt.Spec
