import Verif.Model.Tokio
import Verif.Model.Smol
/-!
# What the properties of the networks say about an observed history

Everything here is computed from what an observer sees (`Obs`), not from the state of a network.
-/

namespace Mqrstt.Spec

/-- does the client have a connection: a successful `connect` makes one, the end of `run` (in any way), a panic in
`connect` and dropping the network end it -/
def upStep (up : Bool) : Obs → Bool
  | .connected _ _ => true
  | .ended _ => false
  | .connectPanicked => false
  | .user .networkDropped => false
  | _ => up

def isUp (tr : List Obs) : Bool := tr.foldl upStep false

/-- is `run` executing -/
def runStep (running : Bool) : Obs → Bool
  | .started => true
  | .ended _ => false
  | .cancelled => false
  | _ => running

def isRunning (tr : List Obs) : Bool := tr.foldl runStep false

/-- what the user's handler has been called with -/
def deliveredIn (tr : List Obs) : List Packet := tr.filterMap fun | .delivered p => some p | _ => none

/-- what has been read -/
def readIn (tr : List Obs) : List Packet := tr.filterMap fun | .read p => some p | _ => none

/-- what has been written -/
def writtenIn (tr : List Obs) : List Packet := tr.filterMap fun | .wrote p _ _ => some p | _ => none

/-- what the clients put into the queue -/
def submittedIn (tr : List Obs) : List Packet := tr.filterMap fun | .user (.submitted p) => some p | _ => none

/-- a packet that can only come from a client call: a publish without DUP, a subscribe or an unsubscribe -/
def isFresh : Packet → Bool
  | .publish p => !p.dup
  | .subscribe _ | .unsubscribe _ => true
  | _ => false

/-- the packets of client calls that have been written -/
def freshIn (tr : List Obs) : List Packet := (writtenIn tr).filter isFresh

/-! ## the histories -/

/-- the tokio network after a history -/
def tokio (o : Options) (t : Nat) (ops : List TokioOp) : Tokio := ((Tokio.new o t).runOps ops).1
/-- what was observed -/
def tokioTrace (o : Options) (t : Nat) (ops : List TokioOp) : List Obs := ((Tokio.new o t).runOps ops).2

/-- the smol network after a history -/
def smol (checks : Bool) (o : Options) (t : Nat) (ops : List SmolOp) : Smol := ((Smol.new checks o t).runOps ops).1
/-- what was observed -/
def smolTrace (checks : Bool) (o : Options) (t : Nat) (ops : List SmolOp) : List Obs :=
  ((Smol.new checks o t).runOps ops).2

/-- the observations of a history of either network -/
inductive IsTrace (tr : List Obs) : Prop where
  | tokio (o : Options) (t : Nat) (ops : List TokioOp) (h : tr = tokioTrace o t ops)
  | smol (checks : Bool) (o : Options) (t : Nat) (ops : List SmolOp) (h : tr = smolTrace checks o t ops)

/-- what the end of a run may do to the session: nothing, or what the packet does that was being processed, or (only
in a panic) the network is gone -/
def OnlyLastPacket (s s' : Sys) (obs : List Obs) (e : End) : Prop :=
  s' = s ∨ (∃ p r, .read p ∈ obs ∧ s.step (.receive p) = some (s', r)) ∨
    (∃ ok r, s.step (.write ok) = some (s', r)) ∨ (e = .panicked ∧ s' = s.die)

/-- what stands before the status with which `run` returned: the last packet read was a DISCONNECT, which the handler has
seen; the last packet written was a DISCONNECT which the user had submitted; the last packet written was a DISCONNECT with
the reason "keep alive timeout"; the remaining status is never reported -/
def StatusReason (pre : List Obs) : Status → Prop
  | .incomingDisconnect => ∃ d, [.read (.disconnect d), .delivered (.disconnect d)] <:+ pre
  | .outgoingDisconnect => ∃ d a b, [.wrote (.disconnect d) a b] <:+ pre ∧ .disconnect d ∈ submittedIn pre
  | .keepAliveTimeout => ∃ a b, [.wrote (.disconnect ⟨.keepAliveTimeout, .empty⟩) a b] <:+ pre
  | .shutdownSignal => False

end Mqrstt.Spec
