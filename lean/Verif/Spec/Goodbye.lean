import Verif.Spec.Network
/-! # Saying goodbye: what a disconnect call means -/

namespace Mqrstt.Spec
open Mqrstt

/-- `run` failed: a packet taken from the queue may be lost -/
def fails : Obs → Bool
  | .ended (.error .noNetwork) => false
  | .ended (.error _) => true
  | .ended .panicked => true
  | _ => false

/-- `run` ended because a DISCONNECT of the user was written -/
def leaves : Obs → Bool
  | .ended (.status .outgoingDisconnect) => true
  | _ => false

/-- the number of connections that a DISCONNECT of the user has ended -/
def leftIn (tr : List Obs) : Nat := (tr.filter leaves).length

/-- the number of disconnect calls whose packet was accepted -/
def leaveCalls (tr : List Obs) : Nat := ((submittedIn tr).filter Packet.isDisconnect).length

end Mqrstt.Spec
