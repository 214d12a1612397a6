import Verif.Proof.Interrupt
import Verif.Props.DroppedConnect
/-!
# A session survives dropped calls (C103)
-/

namespace Mqrstt.Props
open Mqrstt Mqrstt.Spec _root_.Spec

/-- **C103.** The futures of `run` and `connect` may be dropped anywhere and as often as one likes: the session is at any time the
session after a history of the clients, the server and write results in which nothing is dropped. In this history the clients
made the same calls, got the same identifiers and submitted the same packets. Its handler was called with what the handler was
called with here, and at most once more for each call dropped. So what the properties C20-C35, C39, C47, C49 and C50 say about
the session and the identifiers holds here too. -/
theorem C103_session_sound (o : Options) (t : Nat) :
    (∀ ops : List TokioWireOp, ∃ sops : List Op, (tokioWire o t ops).net.sys = client o.config sops ∧
      calledIn (tokioWireTrace o t ops) = callsOf (events o.config sops) ∧
      submittedIn (tokioWireTrace o t ops) = submittedPackets (events o.config sops) ∧
      ((deliveredIn (tokioWireTrace o t ops)).filter Packet.forSession).Sublist ((events o.config sops).flatMap Event.shows) ∧
      ((events o.config sops).flatMap Event.shows).length ≤
        ((deliveredIn (tokioWireTrace o t ops)).filter Packet.forSession).length + droppedIn (tokioWireTrace o t ops)) ∧
    (∀ (checks : Bool) (ops : List SmolWireOp), ∃ sops : List Op, (smolWire checks o t ops).net.sys = client o.config sops ∧
      calledIn (smolWireTrace checks o t ops) = callsOf (events o.config sops) ∧
      submittedIn (smolWireTrace checks o t ops) = submittedPackets (events o.config sops) ∧
      ((deliveredIn (smolWireTrace checks o t ops)).filter Packet.forSession).Sublist ((events o.config sops).flatMap Event.shows) ∧
      ((events o.config sops).flatMap Event.shows).length ≤
        ((deliveredIn (smolWireTrace checks o t ops)).filter Packet.forSession).length + droppedIn (smolWireTrace checks o t ops)) := by
  constructor
  · intro ops
    obtain ⟨sops, h⟩ := (tokio_interrupted o t ops).1
    exact ⟨sops, h.sys, h.called, h.submitted, h.shows, h.missing⟩
  · intro checks ops
    obtain ⟨sops, h⟩ := (smol_interrupted checks o t ops).1
    exact ⟨sops, h.sys, h.called, h.submitted, h.shows, h.missing⟩

/-- a history with two drops, a write that is cut and a handler that is left; the session handled one message more than the
user's handler saw -/
example : droppedIn (tokioWireTrace resumeOptions 0 damageOps) = 2 ∧
    ((deliveredIn (tokioWireTrace resumeOptions 0 damageOps)).map (·.type)) = [.connAck] ∧
    (readIn (tokioWireTrace resumeOptions 0 damageOps)).map (·.type) = [.connAck, .publish] ∧
    (calledIn (tokioWireTrace resumeOptions 0 damageOps)).map (·.2) = [none, none] := ⟨rfl, rfl, rfl, rfl⟩

/-- **C103, identifiers.** After any such history a call gets an identifier that no packet in flight and no waiting call has. -/
theorem C103_ids_unique (o : Options) (t : Nat) :
    (∀ ops : List TokioWireOp, ∃ sops : List Op,
      calledIn (tokioWireTrace o t ops) = callsOf (events o.config sops) ∧ (ledger o.config sops).ids.Nodup ∧
      ∀ q id p s', (tokioWire o t ops).net.sys.step (.call q) = some (s', .called q (some id) p) →
        id ∉ (ledger o.config sops).ids) ∧
    (∀ (checks : Bool) (ops : List SmolWireOp), ∃ sops : List Op,
      calledIn (smolWireTrace checks o t ops) = callsOf (events o.config sops) ∧ (ledger o.config sops).ids.Nodup ∧
      ∀ q id p s', (smolWire checks o t ops).net.sys.step (.call q) = some (s', .called q (some id) p) →
        id ∉ (ledger o.config sops).ids) := by
  constructor
  · intro ops
    obtain ⟨sops, h⟩ := (tokio_interrupted o t ops).1
    refine ⟨sops, h.called, (C20_ids_unique o.config sops).1, ?_⟩
    rw [tokioWire, h.sys]
    exact (C20_ids_unique o.config sops).2
  · intro checks ops
    obtain ⟨sops, h⟩ := (smol_interrupted checks o t ops).1
    refine ⟨sops, h.called, (C20_ids_unique o.config sops).1, ?_⟩
    rw [smolWire, h.sys]
    exact (C20_ids_unique o.config sops).2

/-- identifier 1 was lost with the message that was dropped before its first byte; the next call gets 2 -/
example : (tokioWireTrace resumeOptions 0 (tokioReady .atLeastOnce ++ [.drop .outgoing (.writing 0) 0 (at' 2)] ++
      [.op (.client (.call (demoPublish .atLeastOnce)))]) |> calledIn).map (·.2) = [some 1, some 2] := rfl

/-- **C103, nothing new is written that was not submitted,** and not twice: the publishes without DUP, subscribes and
unsubscribes that the network reports as written are among those submitted, in that order. -/
theorem C103_written_once (o : Options) (t : Nat) :
    (∀ ops : List TokioWireOp, (freshIn (tokioWireTrace o t ops)).Sublist (submittedIn (tokioWireTrace o t ops))) ∧
    (∀ (checks : Bool) (ops : List SmolWireOp),
      (freshIn (smolWireTrace checks o t ops)).Sublist (submittedIn (smolWireTrace checks o t ops))) := by
  constructor
  · intro ops
    obtain ⟨sops, h⟩ := (tokio_interrupted o t ops).1
    rw [tokioWireTrace, h.submitted]
    exact h.fresh
  · intro checks ops
    obtain ⟨sops, h⟩ := (smol_interrupted checks o t ops).1
    rw [smolWireTrace, h.submitted]
    exact h.fresh

/-- the message is written, `connect` is dropped while it sends the message again, and succeeds: three copies, one without DUP -/
example : (writtenIn (tokioWireTrace resumeOptions 0 (givenUp (.resending 1)))).length = 6 ∧
    (freshIn (tokioWireTrace resumeOptions 0 (givenUp (.resending 1)))).length = 1 ∧
    (submittedIn (tokioWireTrace resumeOptions 0 (givenUp (.resending 1)))).length = 1 := ⟨rfl, rfl, rfl⟩

/-- **C103, a dropped call is over.** Nothing is done on behalf of `run` unless it was called and has neither ended nor been
dropped since, `connect` does nothing
while it executes, and `run` can be called exactly if it does not execute, as long as the network has not panicked. -/
theorem C103_dropped_is_over (o : Options) (t : Nat) :
    (∀ ops : List TokioWireOp,
      (∀ b lost io T, ((tokioWire o t ops).step (.op (.turn b lost io T))).isSome → isRunning (tokioWireTrace o t ops) = true) ∧
      (∀ b d lost T, ((tokioWire o t ops).step (.drop b d lost T)).isSome → isRunning (tokioWireTrace o t ops) = true) ∧
      (∀ i d, ((tokioWire o t ops).step (.dropConnect i d)).isSome → isRunning (tokioWireTrace o t ops) = false) ∧
      (((tokioWire o t ops).step (.op .start)).isSome ↔
        isRunning (tokioWireTrace o t ops) = false ∧ (tokioWire o t ops).net.sys.alive = true) ∧
      (∀ i, ((tokioWire o t ops).step (.op (.connect i))).isSome → isRunning (tokioWireTrace o t ops) = false)) ∧
    (∀ (checks : Bool) (ops : List SmolWireOp),
      (∀ b io T, ((smolWire checks o t ops).step (.op (.turn b io T))).isSome → isRunning (smolWireTrace checks o t ops) = true) ∧
      (∀ b d T, ((smolWire checks o t ops).step (.drop b d T)).isSome → isRunning (smolWireTrace checks o t ops) = true) ∧
      (∀ i d, ((smolWire checks o t ops).step (.dropConnect i d)).isSome → isRunning (smolWireTrace checks o t ops) = false) ∧
      (((smolWire checks o t ops).step (.op .start)).isSome ↔
        isRunning (smolWireTrace checks o t ops) = false ∧ (smolWire checks o t ops).net.sys.alive = true) ∧
      (∀ i, ((smolWire checks o t ops).step (.op (.connect i))).isSome → isRunning (smolWireTrace checks o t ops) = false)) := by
  constructor
  · intro ops
    have h := (tokio_interrupted o t ops).2
    change (tokioWire o t ops).net.run.isSome = isRunning (tokioWireTrace o t ops) at h
    generalize tokioWire o t ops = s at h ⊢
    rw [← h]
    exact ⟨fun b lost io T hs => s.turn_running hs, fun b d lost T hs => s.drop_running hs, fun i d hs => s.dropConnect_running hs,
      s.start_iff, fun i hs => s.connect_running hs⟩
  · intro checks ops
    have h := (smol_interrupted checks o t ops).2
    change (smolWire checks o t ops).net.running = isRunning (smolWireTrace checks o t ops) at h
    generalize smolWire checks o t ops = s at h ⊢
    rw [← h]
    exact ⟨fun b io T hs => s.turn_running hs, fun b d T hs => s.drop_running hs, fun i d hs => s.dropConnect_running hs,
      s.start_iff, fun i hs => s.connect_running hs⟩

/-- `run` is dropped in the handler that is told PINGRESP: a turn is possible before, none after, and `run` can be called again -/
example : let ops := (tokioUp ++ [.arrive [208, 0]] : List TokioOp).map TokioWireOp.op
    let ops' := ops ++ [.drop .read .handling 0 (at' 2)]
    isRunning (tokioWireTrace resumeOptions 0 ops) = true ∧
    ((tokioWire resumeOptions 0 ops).step (.op (.turn .read 0 true (at' 2)))).isSome ∧
    isRunning (tokioWireTrace resumeOptions 0 ops') = false ∧
    ((tokioWire resumeOptions 0 ops').step (.op (.turn .readError 0 true (at' 3)))).isSome = false ∧
    ((tokioWire resumeOptions 0 ops').step (.op .start)).isSome := ⟨rfl, rfl, rfl, rfl, rfl⟩
example : let ops := smolUp.map SmolWireOp.op
    let ops' := ops ++ [.drop (.read [208, 0]) .handling (at' 2)]
    isRunning (smolWireTrace true resumeOptions 0 ops) = true ∧
    isRunning (smolWireTrace true resumeOptions 0 ops') = false ∧
    ((smolWire true resumeOptions 0 ops').step (.op (.turn .readError true (at' 3)))).isSome = false ∧
    ((smolWire true resumeOptions 0 ops').step (.op .start)).isSome := ⟨rfl, rfl, rfl, rfl⟩

end Mqrstt.Props
