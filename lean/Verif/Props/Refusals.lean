import Verif.Proof.Refusals
import Verif.Props.Calm
import Verif.Props.Answers
import Verif.Proof.Strict
/-!
# The errors of refused calls (C113)

C112 is about the errors of `run` and `connect`; this is about those of `publish`, `subscribe`, `unsubscribe` and `disconnect`.
-/

namespace Mqrstt.Props
open Mqrstt Mqrstt.Spec _root_.Spec

theorem refusal_aux {fl : Flavor} {o : Options} {t : Nat} {pre post : List Obs} {v : View} {q : Request} {id : Option UInt16}
    {e : ClientErr} (h : VRun fl (View.init o t) (pre ++ .user (.rejected q id e) :: post) v) :
    RefusalClaim o.config.maxPacketSize pre SizeOfRest q id e := by
  obtain ⟨w, s', op, hw, hc, hs⟩ := h.userStep rfl (by simp)
  obtain rfl := Sys.step_rejected hc hs
  have := hw.refusal hs
  cases e with
  | noNetworkChannel =>
    intro hu
    rw [hw.usable hu] at this
    cases this
  | validation e =>
    obtain ⟨p, hp, hv⟩ := this
    rcases validate_error hp hv with ⟨rfl, hl, hk⟩ | ⟨topic, ht, rfl, hl⟩
    · exact ⟨hl, p, hp, fun wf m hm => sent_size wf hk hm⟩
    · exact ⟨topic, ht, rfl, hl⟩

/-- **C113 (partial).** In every history of either network with its clients: if a call is refused, what its error says is so. The
network is gone; or the topic has this length, and it is too long; or the packet is larger than the maximum in the options. Missing:
the number given for a packet that is too large is not its size, but the size without the first byte and the length. -/
theorem C113_refused_call_partial (o : Options) (tr pre post : List Obs) (h : IsTraceWith o tr) (q : Request) (id : Option UInt16)
    (e : ClientErr) (ht : tr = pre ++ .user (.rejected q id e) :: post) :
    RefusalClaim o.config.maxPacketSize pre SizeOfRest q id e := by
  subst ht
  rcases h with ⟨t, ops, h⟩ | ⟨k, t, ops, h⟩
  · exact refusal_aux (by rw [h]; exact Tokio.vrun o t ops)
  · exact refusal_aux (by rw [h]; exact Smol.vrun k o t ops)

/-- **C113, calls that wait.** A call that waits for room in the queue is refused only if the network is gone. -/
theorem C113_waiting_call (o : Options) (tr pre post : List Obs) (h : IsTraceWith o tr) (p : Packet)
    (ht : tr = pre ++ .user (.refused p) :: post) : ¬ Usable pre := by
  subst ht
  have key : ∀ {fl t v}, VRun fl (View.init o t) (pre ++ .user (.refused p) :: post) v → ¬ Usable pre := by
    intro fl t v h hu
    obtain ⟨w, s', op, hw, hc, hs⟩ := h.userStep rfl (by simp)
    exact Bool.noConfusion ((hw.usable hu).symm.trans (Sys.step_refused hc hs))
  rcases h with ⟨t, ops, h⟩ | ⟨k, t, ops, h⟩
  · exact key (by rw [h]; exact Tokio.vrun o t ops)
  · exact key (by rw [h]; exact Smol.vrun k o t ops)

theorem as_valid (n : Nat) : validUtf8 (List.replicate n 97) = true := by
  have : List.replicate n (97 : UInt8) = (List.replicate n 'a').flatMap String.utf8EncodeChar := by
    induction n with
    | zero => rfl
    | succ n ih =>
      rw [List.replicate_succ, ih, List.replicate_succ, List.flatMap_cons]
      rfl
  rw [this]
  exact validUtf8_of_chars _

/-- a topic of 65536 bytes -/
def longTopic : Str := ⟨List.replicate 65536 97, as_valid _⟩

def publishLong : Request := .publish longTopic .atMostOnce false [] .empty

/-- a payload of 30 bytes -/
def publishThirty : Request := .publish ⟨[97], by decide⟩ .atMostOnce false (List.replicate 30 120) .empty

theorem publishLong_refused :
    (Tokio.new resumeOptions 0).step (.client (.call publishLong)) =
      some (Tokio.new resumeOptions 0, [.user (.rejected publishLong none (.validation (.topicSize 65536)))]) := by
  have hv : (Publish.mk false .atMostOnce false longTopic none .empty []).validate (Tokio.new resumeOptions 0).sys.maxPacketSize =
      .error (.topicSize 65536) := by
    have hl : longTopic.length = 65536 := List.length_replicate
    have hb : List.length longTopic.bytes = 65536 := List.length_replicate
    have hm : (Tokio.new resumeOptions 0).sys.maxPacketSize = 268435455 := rfl
    have hp : (Props.wireLen publishEntries .empty) = 0 := rfl
    have hz : VarInt.len 0 = 1 := rfl
    simp [Publish.validate, Publish.wireLen, strWireLen, hl, hb, hm, hp, hz, maximumTopicSize]
  have hc : (Tokio.new resumeOptions 0).sys.pool.closed = false := rfl
  simp only [Tokio.step, Op.ofClient, Sys.step, Sys.call, hc, publishLong, Request.takesId, Sys.callWith, Request.packet,
    Packet.validate, hv]
  rfl

/-- a topic that is too long, a packet that is too large, a network that has been dropped -/
example :
    (∃ s', (Tokio.new resumeOptions 0).step (.client (.call publishLong)) =
      some (s', [.user (.rejected publishLong none (.validation (.topicSize 65536)))])) ∧
    (∃ s', (tokio modest 0 []).step (.client (.call publishThirty)) =
      some (s', [.user (.rejected publishThirty none (.validation (.maxPacketSize 34)))])) ∧
    (∃ s', (tokio modest 0 [.dropNetwork]).step (.client (.call (demoPublish .atMostOnce))) =
      some (s', [.user (.rejected (demoPublish .atMostOnce) none .noNetworkChannel)])) ∧
    (∃ s' p, (tokio modest 0 [.client (.call (demoPublish .atMostOnce)), .dropNetwork]).step (.client (.submit 0)) =
      some (s', [.user (.refused p)])) :=
  ⟨⟨_, publishLong_refused⟩, ⟨_, rfl⟩, ⟨_, rfl⟩, _, _, rfl⟩

/-- **C113 is false of the code**: a publish that is sent in 36 bytes is refused, and the error says that it has 34. -/
theorem C113_size_violated :
    ∃ s' p, (tokio modest 0 []).step (.client (.call publishThirty)) =
        some (s', [.user (.rejected publishThirty none (.validation (.maxPacketSize 34)))]) ∧
      publishThirty.packet none = some p ∧ SentIn p 36 ∧ ¬ SentIn p 34 := by
  refine ⟨_, _, rfl, rfl, .inl ⟨_, rfl, rfl⟩, ?_⟩
  rintro (⟨bs, h, hl⟩ | ⟨bs, k, h, hl⟩)
  · cases h; cases hl
  · cases h; cases hl

end Mqrstt.Props
