import Verif.Props.Senders
import Verif.Props.Limits
import Verif.Props.Errors
import Verif.Proof.Requests
/-!
# C88: acknowledgements are recognised
-/

namespace Mqrstt.Props
open Mqrstt Mqrstt.Spec _root_.Spec

/-- **C88**, the part that holds: in every history of either network, an acknowledgement that the client waits for is passed to
the handler; any other one ends `run` with the error that names its kind and its identifier. Missing: acknowledgements after
the last client is gone (C85), a PUBACK or PUBREC for a publish of the other QoS, and a PUBACK or PUBREC with identifier 0 or
above the receive maximum (C34). -/
theorem C88_recognised_partial {o : Options} {tr pre post : List Obs} {p : Packet} {id : UInt16} (h : IsTraceWith o tr)
    (e : tr = pre ++ .read p :: post) (hrun : isRunning pre = true) (hid : ackId p = some id) :
    (Awaits o.cleanStart pre p → ¬ ClientsGone pre → [.delivered p] <+: post) ∧
    (¬ Awaits o.cleanStart pre p →
      (p.type = .pubAck ∨ p.type = .pubRec → (1 ≤ id.toNat ∧ id.toNat ≤ o.receiveMaximum.toNat) ∧
        ∀ q ∈ (sender o.cleanStart pre).unacked, q.pkid ≠ some id) →
      [.ended (.error (.handler (.unsolicited id p.type)))] <+: post) := by
  obtain ⟨fl, t, w, h⟩ := h.vrun
  have hp : p.type ≠ .connAck ∧ p.type ≠ .pingResp ∧ p.type ≠ .disconnect := by
    cases p <;> simp [ackId, Packet.type] at hid ⊢
  obtain ⟨v, h1, ha, h2, h3⟩ := h.readAck e hrun hp
  obtain ⟨n, r, l, lost, hi, hl⟩ := h1.sends.2.inv
  obtain ⟨hu, hacc⟩ := hl ha
  obtain ⟨hsub, hunsub⟩ := h1.knows.same ha
  have live := hi.live ha
  have hr : r.toNat = o.receiveMaximum.toNat := by
    obtain ⟨ops, hc⟩ := h1.contains
    have := hc.sys
    have hi' := inv o.config ops
    rw [← this] at hi'
    rw [← live.slots, (hi'.live ha).slots]
    rfl
  have hsubs : ∀ id, id ∈ l.subscribes ↔ id ∈ (requests pre).subscribes := fun id => live.mem_sub.symm.trans (hsub.mem id)
  have hunsubs : ∀ id, id ∈ l.unsubscribes ↔ id ∈ (requests pre).unsubscribes := fun id =>
    live.mem_unsub.symm.trans (hunsub.mem id)
  have hmem : ∀ q ∈ (sender o.cleanStart pre).unacked, ∀ id, q.pkid = some id → id ∈ l.publishIds := by
    intro q hq id hqi
    exact List.mem_filterMap.mpr ⟨q, hu ▸ hq, hqi⟩
  have hnot : ∀ id, (∀ q ∈ (sender o.cleanStart pre).unacked, q.pkid ≠ some id) → id ∉ l.publishIds := by
    intro id h hm
    obtain ⟨q, hq, hqi⟩ := List.mem_filterMap.mp hm
    exact h q (hu ▸ hq) hqi
  refine ⟨fun hw hg => ?_, fun hw hpub => ?_⟩
  · have hopen : v.sys.pool.closed = false := by
      cases hc : v.sys.pool.closed
      · rfl
      · exact absurd (h1.closed.mp hc) hg
    cases p with
    | pubAck a =>
      obtain ⟨q, hq, hqi, -⟩ := hw
      obtain ⟨s', hs, -⟩ := hi.pubAck_known ha hopen (hmem q hq _ hqi)
      exact h2 _ _ hs
    | pubRec a =>
      obtain ⟨q, hq, hqi, -⟩ := hw
      obtain ⟨s', hs, -⟩ := hi.pubRec_known ha (hmem q hq _ hqi)
      exact h2 _ _ hs
    | pubComp a =>
      obtain ⟨s', hs, -⟩ := hi.pubComp_known ha hopen (by rw [← hacc]; exact hw)
      exact h2 _ _ hs
    | subAck a =>
      obtain ⟨s', hs, -⟩ := hi.subAck_known ha hopen ((hsubs _).mpr hw)
      exact h2 _ _ hs
    | unsubAck a =>
      obtain ⟨s', hs, -⟩ := hi.unsubAck_known ha hopen ((hunsubs _).mpr hw)
      exact h2 _ _ hs
    | _ => simp [ackId] at hid
  · cases p with
    | pubAck a =>
      obtain rfl : a.id = id := Option.some.inj hid
      obtain ⟨⟨g1, g2⟩, g3⟩ := hpub (.inl rfl)
      exact h3 _ _ (hi.pubAck_unknown ha g1 (hr ▸ g2) (hnot _ g3))
    | pubRec a =>
      obtain rfl : a.id = id := Option.some.inj hid
      obtain ⟨⟨g1, g2⟩, g3⟩ := hpub (.inr rfl)
      exact h3 _ _ (hi.pubRec_unknown ha g1 (hr ▸ g2) (hnot _ g3))
    | pubComp a =>
      obtain rfl : a.id = id := Option.some.inj hid
      exact h3 _ _ (hi.pubComp_unknown ha fun g => hw (by rw [← hacc] at g; exact g))
    | subAck a =>
      obtain rfl : a.id = id := Option.some.inj hid
      exact h3 _ _ (hi.subAck_unknown ha fun g => hw ((hsubs _).mp g))
    | unsubAck a =>
      obtain rfl : a.id = id := Option.some.inj hid
      exact h3 _ _ (hi.unsubAck_unknown ha fun g => hw ((hunsubs _).mp g))
    | _ => simp [ackId] at hid

/-- a subscribe request -/
def askTopic : Request := .subscribe [(⟨[97], by decide⟩, SubOptions.default)] .empty

/-- the SUBACK for identifier 1 -/
def subAckBytes : Bytes := [0x90, 0x04, 0x00, 0x01, 0x00, 0x00]

/-- a SUBSCRIBE is written and answered, the answer comes a second time -/
def tokioAnsweredTwice : List TokioOp := tokioUp ++ sendNow askTopic 2 ++
  [.arrive subAckBytes, .turn .read 0 true (at' 3), .arrive subAckBytes, .turn .read 0 true (at' 4)]

/-- a SUBSCRIBE is written, the connection ends, the session is resumed, the answer comes on the new connection -/
def tokioLate : List TokioOp := tokioUp ++ sendNow askTopic 2 ++
  [.close, .turn .read 0 true (at' 3), .connect ⟨true, resumedConnAck, false, fun _ => true, true, at' 4⟩, .start,
    .arrive subAckBytes, .turn .read 0 true (at' 5)]

/-- the SUBACK that `subAckBytes` is -/
def theSubAck : Packet := .subAck ⟨1, .empty, [.grantedQoS0]⟩

example :
    let tr := tokioTrace resumeOptions 0 tokioAnsweredTwice
    let first := tokioTrace resumeOptions 0 (tokioUp ++ sendNow askTopic 2)
    tr = first ++ [.read theSubAck, .delivered theSubAck, .read theSubAck, .ended (.error (.handler (.unsolicited 1 .subAck)))] ∧
    isRunning first = true ∧ Awaits false first theSubAck ∧ ¬ ClientsGone first ∧
    ¬ Awaits false (first ++ [.read theSubAck, .delivered theSubAck]) theSubAck := by
  refine ⟨rfl, rfl, ?_, ?_, ?_⟩
  · show (1 : UInt16) ∈ [1]
    simp
  · exact fun hg => Bool.noConfusion (show false = true from (Tokio.vrun resumeOptions 0 (tokioUp ++ sendNow askTopic 2)).closed.mpr hg)
  · show ¬ (1 : UInt16) ∈ []
    simp

/-- a request that is unanswered when the connection ends is forgotten, even if the session is resumed -/
example :
    let tr := tokioTrace resumeOptions 0 tokioLate
    let before := tokioTrace resumeOptions 0 tokioLate.dropLast
    tr = before ++ [.read theSubAck, .ended (.error (.handler (.unsolicited 1 .subAck)))] ∧
    isRunning before = true ∧ ¬ Awaits false before theSubAck := by
  refine ⟨rfl, rfl, ?_⟩
  show ¬ (1 : UInt16) ∈ []
  simp

/-- a PUBACK for identifier 1 and one for an identifier above the receive maximum, which is 4 -/
def pubAckBytes : Bytes := [0x40, 0x02, 0x00, 0x01]
def pubAckNine : Bytes := [0x40, 0x02, 0x00, 0x09]

/-- **C88 is violated**: a PUBACK for a QoS 2 publish is taken for its acknowledgement; a PUBACK with an identifier above the
receive maximum is no error but a panic; and once the last client is gone the awaited PUBACK is an error. -/
theorem C88_recognised_violated :
    (∃ o tr pre post p, IsTraceWith o tr ∧ tr = pre ++ .read p :: post ∧ isRunning pre = true ∧ ackId p = some 1 ∧
      ¬ Awaits o.cleanStart pre p ∧ [.delivered p] <+: post) ∧
    (∃ o tr pre post p, IsTraceWith o tr ∧ tr = pre ++ .read p :: post ∧ isRunning pre = true ∧ ackId p = some 9 ∧
      ¬ Awaits o.cleanStart pre p ∧ [.ended .panicked] <+: post) ∧
    (∃ o tr pre post p, IsTraceWith o tr ∧ tr = pre ++ .read p :: post ∧ isRunning pre = true ∧ ackId p = some 1 ∧
      Awaits o.cleanStart pre p ∧ [.ended (.error (.handler (.packetIdChannelError 1)))] <+: post) := by
  refine ⟨⟨resumeOptions, _, tokioTrace resumeOptions 0 (tokioUp ++ sendNow (demoPublish .exactlyOnce) 2),
      [.delivered (.pubAck ⟨1, .success, .empty⟩)], .pubAck ⟨1, .success, .empty⟩,
      .tokio 0 (tokioUp ++ sendNow (demoPublish .exactlyOnce) 2 ++ [.arrive pubAckBytes, .turn .read 0 true (at' 3)]) rfl,
      rfl, rfl, rfl, ?_, List.prefix_rfl⟩,
    ⟨resumeOptions, _, tokioTrace resumeOptions 0 tokioUp, [.ended .panicked], .pubAck ⟨9, .success, .empty⟩,
      .tokio 0 (tokioUp ++ [.arrive pubAckNine, .turn .read 0 true (at' 3)]) rfl, rfl, rfl, rfl, ?_, List.prefix_rfl⟩,
    ⟨resumeOptions, _, tokioTrace resumeOptions 0 tokioLeft.dropLast, [.ended (.error (.handler (.packetIdChannelError 1)))],
      .pubAck ⟨1, .success, .empty⟩, .tokio 0 tokioLeft rfl, rfl, rfl, rfl, ?_, List.prefix_rfl⟩⟩
  · rintro ⟨q, hq, -, h2⟩
    have : q = ⟨false, .exactlyOnce, false, ⟨[116], by decide⟩, some 1, .empty, [1, 2, 3]⟩ := by
      simpa using (show q ∈ [_] from hq)
    subst this
    simp at h2
  · rintro ⟨q, hq, -⟩
    have : q ∈ [] := hq
    simp at this
  · exact ⟨⟨false, .atLeastOnce, false, ⟨[116], by decide⟩, some 1, .empty, [1, 2, 3]⟩,
      (show _ ∈ [_] from List.mem_singleton.mpr rfl), rfl, rfl⟩

end Mqrstt.Props
