import Verif.Spec.Senders
/-!
# What is needed to connect again (C90)
-/

namespace Mqrstt.Spec

/-- after this the `Network` does not exist any more: it was dropped, or `connect` or `run` has panicked -/
def endsNetwork : Obs → Bool
  | .ended .panicked | .connectPanicked | .user .networkDropped => true
  | _ => false

/-- the `Network` still exists -/
def Usable (tr : List Obs) : Prop := ∀ x ∈ tr, endsNetwork x = false

/-- what is observed of a `connect` that succeeds: CONNECT is written, the CONNACK read and passed to the handler, packets of
the session may be sent again, `connect` returns -/
def Succeeds (c : ConnAck) (obs : List Obs) : Prop :=
  ∃ cn a b ws t, obs = [.wrote (.connect cn) a b, .read (.connAck c), .delivered (.connAck c)] ++ ws ++ [.connected c t] ∧
    ∀ x ∈ ws, ∃ p a b, x = .wrote p a b

end Mqrstt.Spec
