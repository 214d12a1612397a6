import Verif.Proof.Sender
import Verif.Props.Connecting
/-!
# C65: what the client puts on the wire obeys the rules for senders
-/

namespace Mqrstt.Props
open Mqrstt Mqrstt.Spec _root_.Spec

/-- **C65.** Whatever a client writes in whatever history, the rules for senders allow it at that point. -/
theorem C65_sender (o : Options) (tr : List Obs) (h : IsTraceWith o tr) (pre post : List Obs) (p : Packet) (a b : Nat)
    (e : tr = pre ++ .wrote p a b :: post) : (sender o.cleanStart pre).MaySend o.cleanStart p := by
  obtain ⟨fl, t, w, hv⟩ := h.vrun
  obtain ⟨h1, -⟩ := hv.sends
  rw [e] at h1
  obtain ⟨h2, h3⟩ := h1.at
  cases hc : isConnectObs (.wrote p a b) with
  | false => exact h2 p a b rfl hc
  | true =>
    cases p <;> simp [isConnectObs] at hc
    exact ⟨h3 rfl, (e ▸ h).connect⟩

/-- **C52.** When `connect` of the smol network returns, everything that had to be sent again has been: what the rules
still allow to be sent again is nothing. -/
theorem C52_all_sent_again_smol (checks : Bool) (o : Options) (t t' : Nat) (ops : List SmolOp) (pre post : List Obs) (c : ConnAck)
    (h : smolTrace checks o t ops = pre ++ .connected c t' :: post) :
    (sender o.cleanStart pre).again = [] ∧ (sender o.cleanStart pre).rels = [] :=
  smol_nothing_left h

/-- a PUBLISH of QoS 2 accepted by PUBREC, one not acknowledged, the connection lost, the session resumed -/
def smolTwoPhases : List SmolOp :=
  smolUp ++ [.client (.call (demoPublish .exactlyOnce)), .client (.submit 0), .turn .outgoing true (at' 2),
    .client (.call (demoPublish .exactlyOnce)), .client (.submit 0), .turn .outgoing true (at' 2),
    .turn (.read [0x50, 0x02, 0x00, 0x01]) true (at' 3), .turn (.read []) true (at' 4),
    .connect ⟨true, [resumedConnAck], true, at' 5⟩]

/-- PUBLISH 1, PUBLISH 2, PUBREL 1; after the reconnection PUBLISH 2 with DUP and PUBREL 1 -/
example :
    let w := writtenIn (smolTrace true resumeOptions 0 smolTwoPhases)
    w.map Packet.ident = [none, some 1, some 2, none, none, some 2, none] ∧
    w.map (fun p => p.type) = [.connect, .publish, .publish, .pubRel, .connect, .publish, .pubRel] :=
  ⟨rfl, rfl⟩

/-- the rules forbid the same packets in other places: at the end of that history nothing may be sent again -/
example :
    let s := sender false (smolTrace true resumeOptions 0 smolTwoPhases)
    s.unacked.map (·.pkid) = [some 2] ∧ s.accepted = [1] ∧ ¬ s.MaySend false (.pubRel ⟨1, .success, .empty⟩) := by
  refine ⟨rfl, rfl, ?_⟩
  intro h
  exact absurd h.1 (by decide)

end Mqrstt.Props
