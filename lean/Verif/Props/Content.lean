import Verif.Props.Receiver
import Verif.Proof.Content
/-!
# The content of messages does not matter (C119)
-/

namespace Mqrstt.Props
open Mqrstt Mqrstt.Spec

/-- **C119.** Let topics, payloads, properties and retain flags be replaced by others of the same lengths, in all calls and in all
messages of the server. Then everything happens as before, with the replaced content: the same calls are accepted, with the same
identifiers, the same packets are written, repeated, answered and given to the handler. -/
theorem C119_content_does_not_matter (w : Rewrite) (cfg : Config) (ops : List Op) :
    events cfg (ops.map w.op) = (events cfg ops).map w.event := by
  have := Rw.run w (Sys.init cfg.sendMax cfg.recvMax cfg.maxPacketSize cfg.cleanStart) ops
  rw [Rw.init] at this
  exact congrArg Prod.snd this

/-- payloads of zeros, retained -/
def zeros : Rewrite where
  topic t := t
  payload b := List.replicate b.length 0
  retain _ := true
  props P := P
  topicLength _ := rfl
  payloadLength b := by simp
  propsLength _ _ := rfl

example : ∃ p, .submitted (.publish p) ∈ events demo (sendOps (demoPublish .atLeastOnce)) ∧ p.payload = [1, 2, 3] ∧
    .submitted (.publish (zeros.publish p)) ∈ events demo ((sendOps (demoPublish .atLeastOnce)).map zeros.op) ∧
    (zeros.publish p).payload = [0, 0, 0] := by
  refine ⟨⟨false, .atLeastOnce, false, ⟨[116], by decide⟩, some 1, .empty, [1, 2, 3]⟩, ?_, rfl, ?_, rfl⟩
  · exact .tail _ (.head _)
  · exact .tail _ (.head _)

end Mqrstt.Props
