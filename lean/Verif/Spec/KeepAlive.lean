import Verif.Spec.Network
/-!
# Keep-alive as an observer of a history sees it
-/

namespace Mqrstt.Spec

/-- the keep-alive interval in force and whether keep-alive is on -/
structure Ka where
  running : Bool
  interval : Nat
  on : Bool

/-- What the code makes of the answers to CONNECT (read while `run` is not executing): a server keep-alive replaces the
interval for good, and an interval of zero at that moment switches keep-alive off for good. -/
def kaStep (s : Ka) : Obs → Ka
  | .started => { s with running := true }
  | .ended _ => { s with running := false }
  | .cancelled => { s with running := false }
  | .read (.connAck c) =>
    if s.running = true ∨ c.reason ≠ .success then s
    else
      let k := (c.serverKeepAlive.map fun k => k.toNat * 1000000000).getD s.interval
      { s with interval := k, on := s.on && decide (k ≠ 0) }
  | _ => s

def ka (configured : Nat) (tr : List Obs) : Ka := tr.foldl kaStep ⟨false, configured, true⟩

/-- What the interval ought to be (C43): the one of the CONNACK of the current connection, otherwise the configured one. -/
def dueInterval (configured : Nat) (c : ConnAck) : Nat := (c.serverKeepAlive.map fun k => k.toNat * 1000000000).getD configured

/-- when the client last sent something on the current connection: `connect` succeeded, or `run` wrote a packet -/
structure Activity where
  running : Bool
  at_ : Nat

def actStep (s : Activity) : Obs → Activity
  | .started => { s with running := true }
  | .ended _ => { s with running := false }
  | .cancelled => { s with running := false }
  | .connected _ t => { s with at_ := t }
  | .wrote _ _ stop => if s.running then { s with at_ := stop } else s
  | _ => s

def lastActivity (tr : List Obs) : Nat := (tr.foldl actStep ⟨false, 0⟩).at_

/-- has a PINGREQ been written on this run that was not answered -/
def pingStep (waiting : Bool) : Obs → Bool
  | .wrote .pingReq _ _ => true
  | .read .pingResp => false
  | .started => false
  | .ended _ => false
  | .cancelled => false
  | _ => waiting

def unanswered (tr : List Obs) : Bool := tr.foldl pingStep false

/-- an observation that ends the wait for a PINGRESP: the answer itself, or the end or begin of a run or connection -/
def endsWait : Obs → Bool
  | .read .pingResp | .started | .ended _ | .cancelled | .connected _ _ => true
  | _ => false

/-- a packet was written -/
def isWrote : Obs → Bool
  | .wrote _ _ _ => true
  | _ => false

/-- a packet was read -/
def isRead : Obs → Bool
  | .read _ => true
  | _ => false

/-- the observations of a history of either network with this configured keep-alive interval -/
inductive IsTraceOf (configured : Nat) (tr : List Obs) : Prop where
  | tokio (o : Options) (t : Nat) (ops : List TokioOp) (h : tr = tokioTrace o t ops) (hk : o.keepAlive = configured)
  | smol (checks : Bool) (o : Options) (t : Nat) (ops : List SmolOp) (h : tr = smolTrace checks o t ops)
      (hk : o.keepAlive = configured)

/-- a keep-alive timeout is justified: a PINGREQ was written on this run, no PINGRESP has been read since, and the
interval has passed since -/
def TimeoutJustified (configured : Nat) (pre : List Obs) : Prop :=
  ∃ p1 p2 a b c d, pre = p1 ++ .wrote .pingReq a b :: (p2 ++ [.wrote keepAliveDisconnect c d]) ∧
    (∀ x ∈ p2, endsWait x = false) ∧ b + (ka configured pre).interval ≤ c

end Mqrstt.Spec
