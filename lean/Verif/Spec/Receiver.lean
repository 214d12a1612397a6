import Verif.Model.System
/-!
# Specification: incoming QoS 2 messages
-/

namespace Mqrstt.Spec

/-- a QoS 2 message with this identifier was received; `shown`: the user's handler got it -/
def Arrival (id : UInt16) (shown : Bool) : Event → Prop
  | .received (.publish p) _ b => p.qos = .exactlyOnce ∧ p.pkid = some id ∧ b = shown
  | _ => False

/-- a PUBREL for this identifier was received -/
def Released (id : UInt16) : Event → Prop
  | .received (.pubRel a) _ _ => a.id = id
  | _ => False

/-- a connection was made (also if some identifier could not be freed because all clients are gone) -/
def Reconnected : Event → Prop
  | .connected _ _ => True
  | .connectError _ _ => True
  | _ => False

/-- in this history a message with the identifier arrived, and since then there was neither a PUBREL for it nor a
new connection -/
def Open (id : UInt16) (h : List Event) : Prop :=
  ∃ h1 e h2 b, h = h1 ++ e :: h2 ∧ Arrival id b e ∧ ∀ x ∈ h2, ¬ Released id x ∧ ¬ Reconnected x

end Mqrstt.Spec
