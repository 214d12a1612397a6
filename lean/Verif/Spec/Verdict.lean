import Verif.Spec.Reconnect
/-!
# How `connect` should end (C109)
-/

namespace Mqrstt.Spec

inductive Verdict where
  /-- the connection is established -/
  | accepted
  /-- the server refuses it -/
  | refused
  /-- the connection breaks -/
  | broken
  /-- `connect` is still waiting for the answer -/
  | waiting

/-- What becomes of a `connect` whose CONNECT the server answers with `c`. `sent`: the connection takes the CONNECT; `answered`: all
of the answer has arrived; `closed`: the stream has ended; `resumed`: the connection takes what is sent again. -/
def verdict (c : ConnAck) (sent answered closed resumed : Bool) : Verdict :=
  if sent = false then .broken
  else if answered = false then (if closed then .broken else .waiting)
  else if c.reason ≠ .success then .refused
  else if resumed then .accepted
  else .broken

/-- the result `r` of a step, if any, is that of a `connect` with this verdict -/
def Announces {σ : Type} (c : ConnAck) (r : Option (σ × List Obs)) : Verdict → Prop
  | .accepted => ∃ s obs, r = some (s, obs) ∧ Succeeds c obs
  | .refused => ∃ s obs, r = some (s, obs) ∧ obs.getLast? = some (.connectFailed (.refused c.reason))
  | .broken => ∃ s obs, r = some (s, obs) ∧ obs.getLast? = some (.connectFailed .io)
  | .waiting => r = none

end Mqrstt.Spec
