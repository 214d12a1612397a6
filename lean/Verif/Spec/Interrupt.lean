import Verif.Spec.Network
/-!
# Histories in which calls are dropped

Vocabulary for C103: the calls of the clients in a history, and how often `run` or `connect` was dropped.
-/

namespace Mqrstt.Spec

/-- the calls that were accepted, each with the identifier it received -/
def callsOf (es : List Event) : List (Request × Option UInt16) :=
  es.filterMap fun | .called q id _ => some (q, id) | _ => none

/-- the same, in what was observed of a network -/
def calledIn (tr : List Obs) : List (Request × Option UInt16) :=
  tr.filterMap fun | .user (.called q id _) => some (q, id) | _ => none

/-- how often a call of `run` or `connect` was dropped -/
def droppedIn (tr : List Obs) : Nat := tr.countP fun | .cancelled => true | _ => false

end Mqrstt.Spec
