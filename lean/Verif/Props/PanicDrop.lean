import Verif.Props.Pieces
import Verif.Props.Interrupt
import Verif.Proof.PanicDrop
/-!
# What makes `run` and `connect` panic after futures have been dropped (C117)
-/

namespace Mqrstt.Props
open Mqrstt Mqrstt.Spec _root_.Spec

/-- **C117, tokio**, the part that holds, after any history in which the futures of `run` and `connect` may have been dropped
anywhere. (1) What is dropped does not panic before. (2) Anything else panics exactly as in `C117_tokio_partial`. Missing: as there. -/
theorem C117_tokio_dropped_partial (o : Options) (t : Nat) (ops : List TokioWireOp) (op : TokioWireOp) (s' : TokioWire)
    (obs : List Obs) (h : (tokioWire o t ops).step op = some (s', obs)) :
    ((∀ op', op ≠ .op op') → .ended .panicked ∉ obs ∧ .connectPanicked ∉ obs) ∧
    (∀ op', op = .op op' → .connectPanicked ∉ obs ∧
      (.ended .panicked ∈ obs ↔ isRunning (tokioWireTrace o t ops) = true ∧
        ((∃ p, .read p ∈ obs ∧ NoSlot o p) ∨ ∃ p a b, .wrote p a b ∈ obs ∧ BeyondReceiveMax o p))) := by
  have ht := tame_of (PanicDrop.tk_reach o t ops)
  have hr : (tokioWire o t ops).net.run.isSome = isRunning (tokioWireTrace o t ops) := (tokio_interrupted o t ops).2
  refine ⟨fun hn => ?_, ?_⟩
  · rcases PanicDrop.tk_step h with ⟨op', e, -⟩ | hp
    · exact absurd e (hn op')
    · exact hp
  · rintro op' rfl
    rcases PanicDrop.tk_step h with ⟨op'', e, hn⟩ | hp
    · cases e
      have hs := Tokio.step_vstep hn
      refine ⟨fun hp => ?_, ?_⟩
      · obtain ⟨-, c, a, b, rfl⟩ := hs.connectPanics (o := o) ht hp
        exact Tokio.connect_not_crashed hn
      · have := hs.panics (o := o) ht
        rw [this, ← hr]
        simp only [Tokio.step_not_crashed hn, or_false]
        exact Iff.rfl
    · simp only [TokioWire.step] at h
      split at h
      · rename_i hn
        cases h
        have hs := Tokio.step_vstep hn
        refine ⟨hp.2, ?_⟩
        have := hs.panics (o := o) ht
        rw [this, ← hr]
        simp only [Tokio.step_not_crashed hn, or_false]
        exact Iff.rfl
      · cases h

/-- **C117, tokio**, wherever futures are dropped: with a send maximum that is at most the receive maximum, and a server that does
not acknowledge identifiers that no publish can have, nothing panics. -/
theorem C117_tokio_never_dropped_partial (o : Options) (t : Nat) (ops : List TokioWireOp) (hmax : o.sendMaximum ≤ o.receiveMaximum)
    (hserver : ∀ p, .read p ∈ tokioWireTrace o t ops → ¬ NoSlot o p) :
    .ended .panicked ∉ tokioWireTrace o t ops ∧ .connectPanicked ∉ tokioWireTrace o t ops := by
  refine (?_ : (∀ p, .read p ∈ tokioWireTrace o t ops → ¬ NoSlot o p) → _) hserver
  rw [tokioWireTrace, TokioWire.runOps]
  refine (history_induct TokioWire.step (s := TokioWire.new o t) (fun s tr => (∃ ops, s = ((TokioWire.new o t).runOps ops).1) ∧
    ((∀ p, .read p ∈ tr → ¬ NoSlot o p) → .ended .panicked ∉ tr ∧ .connectPanicked ∉ tr)) ⟨⟨[], rfl⟩, by simp⟩ ?_ ops).2
  rintro s tr op s' obs ⟨⟨pre, rfl⟩, ih⟩ h
  refine ⟨⟨pre ++ [op], ?_⟩, fun hr => ?_⟩
  · rw [TokioWire.runOps, history_append]
    have h : TokioWire.step (history TokioWire.step (TokioWire.new o t) pre).1 op = some (s', obs) := h
    simp only [history, h]
  have ih := ih fun p hp => hr p (by simp [hp])
  simp only [List.mem_append, not_or]
  have hreach := PanicDrop.tk_reach o t pre
  have key : .ended .panicked ∉ obs ∧ .connectPanicked ∉ obs := by
    rcases PanicDrop.tk_step h with ⟨op', -, hn⟩ | hp
    · have hs := Tokio.step_vstep hn
      refine ⟨fun hp => ?_, fun hp => ?_⟩
      · rcases hs.panics_max (o := o) (tame_of hreach) (fun ha p rest hq => not_beyond_of hreach ha hmax hq) hp with ⟨p, h1, h2⟩ | h1
        · exact hr p (by simp [h1]) h2
        · exact Tokio.step_not_crashed hn h1
      · obtain ⟨-, c, a, b, rfl⟩ := hs.connectPanics (o := o) (tame_of hreach) hp
        exact Tokio.connect_not_crashed hn
    · exact hp
  exact ⟨⟨ih.1, key.1⟩, ih.2, key.2⟩

/-- a history with two drops, a write that is cut and a handler that is left -/
example : resumeOptions.sendMaximum ≤ resumeOptions.receiveMaximum ∧
    (∀ p, .read p ∈ tokioWireTrace resumeOptions 0 damageOps → ¬ NoSlot resumeOptions p) ∧
    droppedIn (tokioWireTrace resumeOptions 0 damageOps) = 2 := by
  obtain ⟨c, a, b, x, y, z, e⟩ : ∃ c a b x y z, tokioWireTrace resumeOptions 0 damageOps = [.wrote c a b, .read (.connAck x),
      .delivered (.connAck x), .connected x 1, .started, .user (.called (demoPublish .atMostOnce) none y), .user (.submitted y),
      .cancelled, .started, .read (.publish z), .cancelled, .started,
      .user (.called (.disconnect .normalDisconnection .empty) none bye), .user (.submitted bye), .wrote bye 3 3,
      .ended (.status .outgoingDisconnect)] := ⟨_, _, _, _, _, _, rfl⟩
  refine ⟨by decide, fun p hp => ?_, rfl⟩
  rw [e] at hp
  simp only [List.mem_cons, Obs.read.injEq, reduceCtorEq, false_or, or_false, List.not_mem_nil] at hp
  rcases hp with rfl | rfl <;> exact id

/-- **C117, smol**, `connect` after any history in which the futures of `run` and `connect` may have been dropped anywhere: it
panics exactly as in `C117_smol_connect_partial`, and what is dropped does not panic before. Missing: as there. -/
theorem C117_smol_dropped_partial (c : Bool) (o : Options) (t : Nat) (ops : List SmolWireOp) (op : SmolWireOp) (s' : SmolWire)
    (obs : List Obs) (h : (smolWire c o t ops).step op = some (s', obs)) :
    ((∀ op', op ≠ .op op') → .ended .panicked ∉ obs ∧ .connectPanicked ∉ obs) ∧
    (.connectPanicked ∈ obs ↔
      ∃ i, op = .op (.connect i) ∧ (∃ p a b, .wrote p a b ∈ obs) ∧ AnswerPanics c i.chunks) := by
  obtain ⟨hc, hg⟩ := PanicDrop.sm_good c o t ops
  have ht := tame_of (PanicDrop.sm_reach c o t ops)
  refine ⟨fun hn => ?_, ?_, ?_⟩
  · rcases PanicDrop.sm_step h with ⟨op', e, -⟩ | hp
    · exact absurd e (hn op')
    · exact hp
  · intro hp
    rcases PanicDrop.sm_step h with ⟨op', rfl, hn⟩ | hq
    · obtain ⟨-, _, a, b, rfl⟩ := (Smol.step_vstep hg hn).1.connectPanics (o := o) ht hp
      obtain ⟨i, rfl, -⟩ := Smol.connect_crashed hn
      refine ⟨i, rfl, ⟨_, _, _, .head _⟩, ?_⟩
      rw [← Pieces.read_panics, ← hc]
      exact Pieces.connect_panics hn
    · exact absurd hp hq.2
  · rintro ⟨i, rfl, ⟨p, a, b, hw⟩, hp⟩
    have hn : (smolWire c o t ops).net.step (.connect i) = some (s'.net, obs) := by
      simp only [SmolWire.step] at h
      split at h
      · rename_i hn
        cases h
        exact hn
      · cases h
    rw [← Pieces.read_panics, ← hc] at hp
    exact Pieces.connect_panicked hn hw hp

/-- a `connect` that was given up, and one that panics -/
example : ∃ s', (smolWire false resumeOptions 0 [.dropConnect ⟨true, [], true, at' 1⟩ (.waiting true)]).step
    (.op (.connect ⟨true, [[0x20, 3, 0], [0], [0]], true, at' 2⟩)) =
      some (s', [.wrote resumeOptions.connectPacket 2 2, .connectPanicked]) := ⟨_, rfl⟩

end Mqrstt.Props
