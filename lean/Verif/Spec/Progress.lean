import Verif.Spec.Network
/-! # What the properties about progress speak of -/

namespace Mqrstt.Spec

/-- the times of consecutive turns, starting at `now` -/
def Clock (now : Nat) : List Times → Prop
  | [] => True
  | T :: Ts => T.ok now = true ∧ Clock T.second Ts

/-- a publish with a packet identifier above the receive maximum (C34: sending it panics) -/
def BeyondReceiveMax (o : Options) : Packet → Prop
  | .publish p => ∃ id, p.pkid = some id ∧ o.receiveMaximum.toNat < id.toNat
  | _ => False

/-- the packets `ps` written one after the other in turns with the times `Ts` -/
def writtenAt : List Packet → List Times → List Obs
  | p :: ps, T :: Ts => .wrote p T.fire T.first :: writtenAt ps Ts
  | _, _ => []

/-! ## schedules without end -/

/-- the first `n` steps of an endless schedule -/
def upTo {Op : Type} (sched : Nat → Op) (n : Nat) : List Op := (List.range n).map sched

/-- a step in which the loop looks at the queue -/
def looksAtQueue : TokioOp → Prop
  | .turn .outgoing _ _ _ => True
  | _ => False

/-- a step in which the loop looks at the queue -/
def looksAtQueueSmol : SmolOp → Prop
  | .turn .outgoing _ _ => True
  | _ => False

/-- the schedule does not neglect the queue for ever: whenever packets wait in it, at some later point the loop takes the
branch that looks at it -/
def FairTokio (o : Options) (t : Nat) (sched : Nat → TokioOp) : Prop :=
  ∀ n, (tokio o t (upTo sched n)).sys.queue ≠ [] →
    ∃ m, n ≤ m ∧ looksAtQueue (sched m) ∧ ((tokio o t (upTo sched m)).step (sched m)).isSome

/-- the same for smol -/
def FairSmol (checks : Bool) (o : Options) (t : Nat) (sched : Nat → SmolOp) : Prop :=
  ∀ n, (smol checks o t (upTo sched n)).sys.queue ≠ [] →
    ∃ m, n ≤ m ∧ looksAtQueueSmol (sched m) ∧ ((smol checks o t (upTo sched m)).step (sched m)).isSome

end Mqrstt.Spec
