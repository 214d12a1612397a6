import Verif.Spec.Discipline
/-!
# The shape of a conversation when futures are dropped

The rules of `Spec/Discipline.lean`, except that the user may also drop `connect`, and `run` in the middle of anything. Either
leaves the client doing nothing, on the connection it had.
-/

namespace Mqrstt.Spec

/-- what may be observed next. A `connect` that has been refused does not wait for anything any more, so it cannot be dropped. -/
def Conv.nextDropping (s : Conv) : Obs → Option Conv
  | .cancelled => match s.phase with
    | .refused => none
    | _ => some { s with phase := .idle }
  | x => s.next x

/-- the conversation after these observations, if all of them were allowed -/
def Conv.afterDropping (s : Conv) : List Obs → Option Conv
  | [] => some s
  | x :: tr => match s.nextDropping x with
    | none => none
    | some s' => s'.afterDropping tr

/-- these observations follow the rules, starting without a connection -/
def WellBehavedDropping (tr : List Obs) : Prop := ∃ s, (Conv.mk .idle false).afterDropping tr = some s

end Mqrstt.Spec
