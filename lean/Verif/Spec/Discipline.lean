import Verif.Spec.Network
/-!
# The shape of a conversation

An automaton over observations: what a client may do when. It is written from the description of `connect` and `run` and
from MQTT (3.1, 4.9), not from the code.
-/

namespace Mqrstt.Spec

/-- what a client is in the middle of -/
inductive Phase where
  /-- neither `connect` nor `run` is executing -/
  | idle
  /-- CONNECT has been written, the answer is awaited -/
  | asked
  /-- the answer was not an accepting CONNACK -/
  | refused
  /-- the server has accepted -/
  | accepted (c : ConnAck)
  /-- the user has been told; what is outstanding is being sent again -/
  | resending (c : ConnAck)
  | running
  /-- the user's, the timer's or the server's DISCONNECT has been written or read: `run` must end -/
  | closing

/-- packets that a client may send on an established connection -/
def clientMaySend : Packet → Bool
  | .publish _ | .pubAck _ | .pubRec _ | .pubRel _ | .pubComp _ | .subscribe _ | .unsubscribe _ | .pingReq
  | .disconnect _ => true
  | .connect _ | .connAck _ | .subAck _ | .unsubAck _ | .pingResp | .auth _ => false

/-- packets that are sent again on a resumed session: publishes marked as duplicates and PUBRELs -/
def isResent : Packet → Bool
  | .publish p => p.dup
  | .pubRel _ => true
  | _ => false

/-- the phase and whether there is a connection -/
structure Conv where
  phase : Phase
  up : Bool

/-- what may be observed next; `none`: it must not happen. What clients do can happen at any time. -/
def Conv.next (s : Conv) : Obs → Option Conv
  | .user .networkDropped => match s.phase with
    | .idle => some ⟨.idle, false⟩
    | _ => none
  | .user _ => some s
  | .wrote p _ _ => match s.phase, p with
    | .idle, .connect _ => some { s with phase := .asked }
    | .resending c, p => if isResent p then some { s with phase := .resending c } else none
    | .running, .disconnect _ => some { s with phase := .closing }
    | .running, p => if clientMaySend p then some s else none
    | _, _ => none
  | .read p => match s.phase, p with
    | .asked, .connAck c => some { s with phase := if c.reason = .success then .accepted c else .refused }
    | .asked, _ => some { s with phase := .refused }
    | .running, .disconnect _ => some { s with phase := .closing }
    | .running, _ => some s
    | _, _ => none
  | .delivered p => match s.phase, p with
    | .accepted c, .connAck _ => some { s with phase := .resending c }
    | .running, _ => some s
    | .closing, .disconnect _ => some s
    | _, _ => none
  | .connected _ _ => match s.phase with
    | .resending _ => some ⟨.idle, true⟩
    | _ => none
  | .connectFailed _ => match s.phase with
    | .idle | .asked | .refused | .accepted _ | .resending _ => some { s with phase := .idle }
    | _ => none
  | .connectPanicked => match s.phase with
    | .asked | .accepted _ => some ⟨.idle, false⟩
    | _ => none
  | .started => match s.phase with
    | .idle => if s.up then some { s with phase := .running } else none
    | _ => none
  | .cancelled => match s.phase with
    | .running => some { s with phase := .idle }
    | _ => none
  | .ended (.error .noNetwork) => match s.phase with
    | .idle => if s.up then none else some s
    | _ => none
  | .ended _ => match s.phase with
    | .running | .closing => some ⟨.idle, false⟩
    | _ => none

/-- the conversation after these observations, if all of them were allowed -/
def Conv.after (s : Conv) : List Obs → Option Conv
  | [] => some s
  | x :: tr => match s.next x with
    | none => none
    | some s' => s'.after tr

/-- these observations follow the rules, starting without a connection -/
def WellBehaved (tr : List Obs) : Prop := ∃ s, (Conv.mk .idle false).after tr = some s

end Mqrstt.Spec
