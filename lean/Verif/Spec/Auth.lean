import Verif.Model.Packet
/-!
# Authentication data and methods

MQTT v5, 3.1.2.11.10, 3.2.2.3.18, 3.15.2.2.3: the three packets that may carry authentication data, and what it means that
the data stands without a method, which is a protocol error.
-/

namespace Spec
open Mqrstt

/-- the properties of a packet that may carry authentication data -/
def authProps : Packet → Option Props
  | .connect c => some c.props
  | .connAck c => some c.props
  | .auth a => some a.props
  | _ => none

/-- authentication data without an authentication method -/
def DataAlone (p : Packet) : Prop :=
  ∃ P, authProps p = some P ∧ P.val .authenticationData ≠ none ∧ P.val .authenticationMethod = none

/-- the properties without authentication data -/
def noData (P : Props) : Props :=
  { P with val := fun t => if t = .authenticationData then none else P.val t }

/-- the same packet without authentication data -/
def withoutData : Packet → Packet
  | .connect c => .connect { c with props := noData c.props }
  | .connAck c => .connAck { c with props := noData c.props }
  | .auth a => .auth { a with props := noData a.props }
  | p => p

end Spec
