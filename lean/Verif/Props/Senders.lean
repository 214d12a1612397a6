import Verif.Proof.Senders
import Verif.Props.Progress
import Verif.Props.Connecting
/-!
# After the last client is gone (C85)
-/

namespace Mqrstt.Props
open Mqrstt Mqrstt.Spec _root_.Spec

/-- **C85**, the part that holds: `run` reports that there is no sender any more only after all clients have been dropped and
everything they had put into the queue has been written, but for at most one packet per earlier run that failed. -/
theorem C85_reported_only_then_partial (tr pre post : List Obs) (h : IsTrace tr)
    (e : tr = pre ++ .ended (.error .noOutgoingPacketSender) :: post) :
    ClientsGone pre ∧ (freshIn pre).Sublist (queuedIn pre) ∧ (queuedIn pre).length ≤ (freshIn pre).length + failedRuns pre := by
  obtain ⟨fl, o, t, v, h⟩ := h.vrun
  obtain ⟨v1, v2, tr1, o1, o2, tr2, h1, h2, -, rfl, -⟩ := h.split e
  have : AllPos (fun o1 x _ => x = .ended (.error .noOutgoingPacketSender) →
      o1 = [] ∧ v1.sys.queue = [] ∧ v1.sys.pool.closed = true) (o1 ++ .ended (.error .noOutgoingPacketSender) :: o2) := by
    generalize o1 ++ Obs.ended (.error .noOutgoingPacketSender) :: o2 = ob at h2
    cases h2
    case failed he => simpa using he.2
    case accepted => rename_i reply shown _ _ _; cases shown <;> cases reply <;> simp [shownObs, wrotes]
    case acceptedFail he _ => rename_i shown _ _ _ _; cases shown <;> simp [shownObs, he.2]
    case readPingFail he => simp [he.2]
    case outFail he _ => simp [he.2]
    case connectFailed ho => rcases ho with rfl | ⟨_, _, _, rfl⟩ <;> simp
    case established => simp; exact allPos_wrotes (by simp) (by simp)
    case establishFail => simp; exact allPos_wrotes (by simp) (by simp)
    all_goals simp
  obtain ⟨rfl, hq, hc⟩ := this _ _ _ rfl rfl
  rw [List.append_nil]
  refine ⟨h1.closed.1 hc, ?_, ?_⟩
  · obtain ⟨ops, hc⟩ := h1.contains
    have := hc.fresh
    rw [← hc.submitted] at this
    have := this.filter isFresh
    rwa [show (freshIn tr1).filter isFresh = freshIn tr1 by simp [freshIn]] at this
  · obtain ⟨l, hl, e⟩ := h1.count
    rw [hq] at e
    simp at e
    omega

/-- **C85**, the part that holds: when all clients are gone and the queue is empty, the loop ends `run` with that error. What
is in the queue before is written first, as with clients (C57). (tokio) -/
theorem C85_then_reported_tokio_partial (o : Options) (t : Nat) (ops : List TokioOp) (io : Bool) (T : Times)
    (hrun : isRunning (tokioTrace o t ops) = true) (hgone : ClientsGone (tokioTrace o t ops))
    (hq : (tokio o t ops).sys.queue = []) (hT : T.ok (tokio o t ops).now = true) :
    ∃ s', (tokio o t ops).step (.turn .outgoing 0 io T) = some (s', [.ended (.error .noOutgoingPacketSender)]) := by
  have hv := Tokio.vrun o t ops
  have hr : (tokio o t ops).run.isSome = true := by
    have := hv.up.2.trans hrun
    simpa [Tokio.view, tokio] using this
  obtain ⟨hl, ha⟩ := hv.running_ready (hv.up.2.trans hrun)
  have ha : (tokio o t ops).sys.alive = true := ha
  have hl : (tokio o t ops).network.isSome = true := hl
  have hc : (tokio o t ops).sys.pool.closed = true := hv.closed.2 hgone
  obtain ⟨aw, hr⟩ := Option.isSome_iff_exists.1 hr
  obtain ⟨c, hl⟩ := Option.isSome_iff_exists.1 hl
  simp only [Tokio.step, Tokio.turn, hr, hl, hT, ha, Bool.and_self, if_true, canLose_zero, Tokio.onOutgoing, hq, hc]
  exact ⟨_, rfl⟩

/-- **C85**, the part that holds. (smol) -/
theorem C85_then_reported_smol_partial (k : Bool) (o : Options) (t : Nat) (ops : List SmolOp) (io : Bool) (T : Times)
    (hrun : isRunning (smolTrace k o t ops) = true) (hgone : ClientsGone (smolTrace k o t ops))
    (hq : (smol k o t ops).sys.queue = []) (hT : T.ok (smol k o t ops).now = true) :
    ∃ s', (smol k o t ops).step (.turn .outgoing io T) = some (s', [.ended (.error .noOutgoingPacketSender)]) := by
  have hv := Smol.vrun k o t ops
  have hr : (smol k o t ops).running = true := hv.up.2.trans hrun
  obtain ⟨hl, ha⟩ := hv.running_ready (hv.up.2.trans hrun)
  have ha : (smol k o t ops).sys.alive = true := ha
  have hl : (smol k o t ops).network.isSome = true := hl
  have hc : (smol k o t ops).sys.pool.closed = true := hv.closed.2 hgone
  obtain ⟨c, hl⟩ := Option.isSome_iff_exists.1 hl
  simp only [Smol.step, Smol.turn, hr, hl, hT, ha, Bool.and_self, if_true, Smol.onOutgoing, hq, hc]
  exact ⟨_, rfl⟩

/-- two messages, then the client is dropped: both are written, then `run` returns -/
example : let up := tokioUp ++ [.client (.call (netPublish [1])), .client (.submit 0), .client (.call (netPublish [2])),
      .client (.submit 0), .client .dropClients, .turn .outgoing 0 true (at' 2), .turn .outgoing 0 true (at' 3)]
    isRunning (tokioTrace netOptions 0 up) = true ∧ (tokio netOptions 0 up).sys.queue = [] ∧
    (writtenIn (tokioTrace netOptions 0 up)).drop 1 = [netPublished [1], netPublished [2]] ∧
    tokioTrace netOptions 0 (up ++ [.turn .outgoing 0 true (at' 4)]) =
      tokioTrace netOptions 0 up ++ [.ended (.error .noOutgoingPacketSender)] := ⟨rfl, rfl, rfl, rfl⟩

/-- the first of two messages -/
def leftMessage : Packet := .publish ⟨false, .atLeastOnce, false, ⟨[116], by decide⟩, some 1, .empty, [1, 2, 3]⟩

/-- a QoS 1 and a QoS 0 message are queued, the first one has been written; then the client is dropped and the
acknowledgement arrives -/
def tokioLeft : List TokioOp := tokioUp ++ [.client (.call (demoPublish .atLeastOnce)), .client (.submit 0),
  .client (.call (netPublish [2])), .client (.submit 0), .turn .outgoing 0 true (at' 2), .client .dropClients,
  .arrive [0x40, 0x02, 0x00, 0x01], .turn .read 0 true (at' 3)]
def smolLeft : List SmolOp := smolUp ++ [.client (.call (demoPublish .atLeastOnce)), .client (.submit 0),
  .client (.call (netPublish [2])), .client (.submit 0), .turn .outgoing true (at' 2), .client .dropClients,
  .turn (.read [0x40, 0x02, 0x00, 0x01]) true (at' 3)]

/-- **C85 is violated**: after the last client is gone the first PUBACK, PUBCOMP, SUBACK or UNSUBACK ends `run` with an error,
expected or not and whatever is still in the queue; with the messages below the second one is never written. -/
theorem C85_acknowledgement_ends_run_violated :
    (∀ tr pre post p, IsTrace tr → tr = pre ++ .read p :: post → ClientsGone pre → isRunning pre = true →
      isCompletion p = true → ∃ e more, post = .ended e :: more ∧ ∀ s, e ≠ .status s) ∧
    (let tr := tokioTrace resumeOptions 0 tokioLeft
     queuedIn tr = [leftMessage, netPublished [2]] ∧
       freshIn tr = [leftMessage] ∧
       [.read (.pubAck ⟨1, .success, .empty⟩), .ended (.error (.handler (.packetIdChannelError 1)))] <:+ tr) ∧
    (let tr := smolTrace true resumeOptions 0 smolLeft
     queuedIn tr = [leftMessage, netPublished [2]] ∧
       freshIn tr = [leftMessage] ∧
       [.read (.pubAck ⟨1, .success, .empty⟩), .ended (.error (.handler (.packetIdChannelError 1)))] <:+ tr) := by
  refine ⟨?_, ⟨rfl, rfl, ?_⟩, ⟨rfl, rfl, ?_⟩⟩
  · intro tr pre post p h e hg hr hp
    obtain ⟨fl, o, t, v, h⟩ := h.vrun
    obtain ⟨v1, v2, tr1, o1, o2, tr2, h1, h2, -, rfl, rfl⟩ := h.split e
    have : AllPos (fun o1 x o2 => x = .read p →
        (o1 = [] ∧ (v1.sys.pool.closed = true → ∃ e, o2 = [.ended e] ∧ ∀ s, e ≠ .status s)) ∨
        (v1.running = false ∧ o1.foldl runStep false = false)) (o1 ++ .read p :: o2) := by
      generalize o1 ++ Obs.read p :: o2 = ob at h2
      have pc : ∀ c, p ≠ .connAck c := by rintro c rfl; simp [isCompletion] at hp
      have pp : p ≠ .pingResp := by rintro rfl; simp [isCompletion] at hp
      have pd : ∀ d, p ≠ .disconnect d := by rintro d rfl; simp [isCompletion] at hp
      cases h2
      case accepted hs =>
        rename_i p' _ reply shown _ _
        have key : p' = p → v1.sys.pool.closed = false := by
          rintro rfl; exact Bool.eq_false_iff.2 fun hc => Sys.step_completion hc hp hs
        cases shown <;> cases reply <;> simp [shownObs, wrotes] <;> intro h <;> exact .inl (key h)
      case acceptedFail hs =>
        rename_i p' _ _ shown _ _ _ _
        have key : p' = p → v1.sys.pool.closed = false := by
          rintro rfl; exact Bool.eq_false_iff.2 fun hc => Sys.step_completion hc hp hs
        cases shown <;> simp [shownObs] <;> intro h <;> exact .inl (key h)
      case connectFailed ho => rcases ho with rfl | ⟨_, _, _, rfl⟩ <;> simp
      case established => simp [Ne.symm (pc _)]; exact allPos_wrotes (by simp) (by simp)
      case establishFail => simp [Ne.symm (pc _)]; exact allPos_wrotes (by simp) (by simp)
      case notConnAck hr _ _ _ => simp [hr, runStep]
      all_goals simp [Ne.symm pp, Ne.symm (pd _), Ne.symm (pc _)]
    rcases this _ _ _ rfl rfl with ⟨rfl, h⟩ | ⟨h3, h4⟩
    · rw [List.append_nil] at hg
      obtain ⟨x, rfl, he⟩ := h (h1.closed.2 hg)
      exact ⟨x, tr2, rfl, he⟩
    · rw [isRunning_append, ← h1.up.2, h3, h4] at hr
      simp at hr
  · exact ⟨tokioTrace resumeOptions 0 tokioLeft.dropLast, rfl⟩
  · exact ⟨smolTrace true resumeOptions 0 smolLeft.dropLast, rfl⟩

end Mqrstt.Props
