import Verif.Spec.Order
import Verif.Proof.Order
import Verif.Props.EndToEnd
import Verif.Props.Limits
/-!
# C77: the order of answers

MQTT v5, 4.6: PUBACK, PUBREC, PUBREL and PUBCOMP go out in the order in which the packets that they answer came in.
-/

namespace Mqrstt.Props
open Mqrstt Mqrstt.Spec _root_.Spec

/-- **C77**, the part that holds: whatever `run` answers, it answers in the order in which the packets came. Missing: PUBRELs
that are sent again after a reconnect, see below. -/
theorem C77_answers_in_order_partial (tr : List Obs) (h : IsTrace tr) : (replies tr).given.Sublist (replies tr).due := by
  obtain ⟨fl, o, t, v, hv⟩ := h.vrun
  obtain ⟨b, h1, h2⟩ := replies_fold tr Rcv.start ⟨false, [], []⟩ hv.inboxed.keeps rfl (by simp [Rcv.start]) ⟨[], rfl, List.Sublist.refl _⟩
  unfold replies
  rw [h1]
  exact h2.trans (List.sublist_append_left _ _)

/-- a QoS 2 message with identifier 7, a QoS 1 message with identifier 3 and a PUBREL 7 come in one after the other -/
def answersOps : List TokioOp :=
  tokioUp ++ [.arrive [0x34, 0x06, 0, 1, 97, 0, 7, 0], .turn .read 0 true (at' 2),
    .arrive [0x32, 0x06, 0, 1, 97, 0, 3, 0], .turn .read 0 true (at' 3), .arrive [0x62, 0x02, 0, 7], .turn .read 0 true (at' 4)]

example : (replies (tokioTrace resumeOptions 0 answersOps)).given = [.pubRec 7, .pubAck 3, .pubComp 7] ∧
    (replies (tokioTrace resumeOptions 0 answersOps)).due = [.pubRec 7, .pubAck 3, .pubComp 7] :=
  ⟨by rfl, by rfl⟩

/-- options that keep the session, with two identifiers -/
def twoIdOptions : Options :=
  Options.build ⟨[97], by decide⟩ [.keepAlive (fromSecs 10), .cleanStart false, .receiveMax 4, .sendMax 2]

/-- a QoS 1 message takes identifier 1 and is acknowledged; a QoS 2 message takes identifier 2, another identifier 1; PUBREC 2
comes, then PUBREC 1; the connection is lost and the session resumed -/
def relOps : List TokioOp :=
  tokioUp ++ sendNow (demoPublish .atLeastOnce) 2 ++ [.arrive [0x40, 0x02, 0x00, 0x01], .turn .read 0 true (at' 3)] ++
    sendNow (demoPublish .exactlyOnce) 4 ++ sendNow (demoPublish .exactlyOnce) 5 ++
    [.arrive [0x50, 0x02, 0x00, 0x02], .turn .read 0 true (at' 6), .arrive [0x50, 0x02, 0x00, 0x01], .turn .read 0 true (at' 7),
      .turn .readError 0 true (at' 8), .connect ⟨true, resumedConnAck, false, fun _ => true, true, at' 9⟩]

/-- **C77** is false as it stands: PUBRELs that are sent again go out in the order of their identifiers, not in the order in
which their PUBRECs came. Here PUBREC 2 came before PUBREC 1, and on the next connection PUBREL 1 goes before PUBREL 2. -/
theorem C77_release_order_violated : ∃ tr, IsTraceWith twoIdOptions tr ∧ recsIn tr = [2, 1] ∧ relsOnLast tr = [1, 2] ∧
    ¬ (relsOnLast tr).Sublist (recsIn tr) := by
  have h1 : recsIn (tokioTrace twoIdOptions 0 relOps) = [2, 1] := by rfl
  have h2 : relsOnLast (tokioTrace twoIdOptions 0 relOps) = [1, 2] := by rfl
  exact ⟨_, .tokio 0 relOps rfl, h1, h2, by rw [h1, h2]; decide⟩

end Mqrstt.Props
