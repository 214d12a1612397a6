import Verif.Proof.SilenceDrop
import Verif.Props.KeepAliveDrop
/-! # When a PINGREQ is due, also when futures are dropped (C42) -/

namespace Mqrstt.Props
open Mqrstt Mqrstt.Spec _root_.Spec

/-- **C42, tokio**, in every history in which the futures of `run` and `connect` may also be dropped anywhere: while `run` executes
with keep-alive on, let nothing have been written since some moment (the clock after `ops1`). Once the interval has passed since
that moment, whatever was received or dropped in the meantime, the timer's turn is due: it writes a PINGREQ, or if one is
unanswered ends the run. -/
theorem C42_dropped_keeps_alive_tokio (o : Options) (t : Nat) (ops1 ops2 : List TokioWireOp) (tr2 : List Obs) (T : Times)
    (htr : tokioWireTrace o t (ops1 ++ ops2) = tokioWireTrace o t ops1 ++ tr2) (hquiet : ∀ x ∈ tr2, isWrote x = false)
    (hrun : isRunning (tokioWireTrace o t (ops1 ++ ops2)) = true)
    (hon : (ka o.keepAlive (tokioWireTrace o t (ops1 ++ ops2))).on = true)
    (hclock : T.ok (tokioWire o t (ops1 ++ ops2)).net.now = true)
    (hdue : (tokioWire o t ops1).net.now + (ka o.keepAlive (tokioWireTrace o t (ops1 ++ ops2))).interval ≤ T.enter) :
    ∃ s', (tokioWire o t (ops1 ++ ops2)).step (.op (.turn .timer 0 true T)) = some (s', [.wrote .pingReq T.fire T.first]) ∨
      (tokioWire o t (ops1 ++ ops2)).step (.op (.turn .timer 0 true T)) =
        some (s', [.wrote keepAliveDisconnect T.fire T.first, .ended (.status .keepAliveTimeout)]) := by
  have hr : (tokioWire o t (ops1 ++ ops2)).net.run.isSome = true := (tokio_interrupted o t (ops1 ++ ops2)).2.trans hrun
  obtain ⟨hlive, halive⟩ := (DeadEndDrop.tokio_more o t (ops1 ++ ops2)).1 hr
  have hsince : Since (tokioWire o t (ops1 ++ ops2)).net.view (tokioWire o t ops1).net.now := by
    have h1 := (KeepAliveDrop.tokio o t ops1).1.clock
    have e := history_append TokioWire.step (TokioWire.new o t) ops1 ops2
    have e1 : tokioWire o t (ops1 ++ ops2) = ((tokioWire o t ops1).runOps ops2).1 := (congrArg Prod.fst e :)
    have e2 : tokioWireTrace o t (ops1 ++ ops2) = tokioWireTrace o t ops1 ++ ((tokioWire o t ops1).runOps ops2).2 :=
      (congrArg Prod.snd e :)
    rw [htr, List.append_cancel_left_eq] at e2
    rw [e1]
    rw [e2] at hquiet
    exact SilenceDrop.tokio ⟨h1.action, h1.await⟩ ops2 hquiet
  obtain ⟨hk, hp⟩ := C43_interval_in_force_dropped_tokio o t (ops1 ++ ops2)
  rw [← hk] at hdue
  obtain ⟨s', h | h⟩ := Tokio.timer_due hr hlive halive (hp.trans hon) hclock hsince hdue
  · exact ⟨⟨s', _⟩, .inl (by simp only [TokioWire.step, h]; rfl)⟩
  · exact ⟨⟨s', _⟩, .inr (by simp only [TokioWire.step, h]; rfl)⟩

/-- **C42**, the part that holds for smol, also with dropped futures: if nothing was received since that moment, either. Missing:
packets that were received in the meantime postpone the ping (`C42_keeps_alive_violated`). -/
theorem C42_dropped_keeps_alive_smol_partial (checks : Bool) (o : Options) (t : Nat) (ops1 ops2 : List SmolWireOp) (tr2 : List Obs)
    (T : Times) (htr : smolWireTrace checks o t (ops1 ++ ops2) = smolWireTrace checks o t ops1 ++ tr2)
    (hquiet : ∀ x ∈ tr2, isWrote x = false) (hunheard : ∀ x ∈ tr2, isRead x = false)
    (hrun : isRunning (smolWireTrace checks o t (ops1 ++ ops2)) = true)
    (hon : (ka o.keepAlive (smolWireTrace checks o t (ops1 ++ ops2))).on = true)
    (hclock : T.ok (smolWire checks o t (ops1 ++ ops2)).net.now = true)
    (hdue : (smolWire checks o t ops1).net.now + (ka o.keepAlive (smolWireTrace checks o t (ops1 ++ ops2))).interval ≤ T.enter) :
    ∃ s', (smolWire checks o t (ops1 ++ ops2)).step (.op (.turn .timer true T)) = some (s', [.wrote .pingReq T.fire T.first]) ∨
      (smolWire checks o t (ops1 ++ ops2)).step (.op (.turn .timer true T)) =
        some (s', [.wrote keepAliveDisconnect T.fire T.first, .ended (.status .keepAliveTimeout)]) := by
  have hr : (smolWire checks o t (ops1 ++ ops2)).net.running = true := (smol_interrupted checks o t (ops1 ++ ops2)).2.trans hrun
  obtain ⟨hlive, halive⟩ := ProgressDrop.smol_ready checks o t (ops1 ++ ops2) hr
  have hsince : Since (smolWire checks o t (ops1 ++ ops2)).net.view (smolWire checks o t ops1).net.now := by
    have h1 := (KeepAliveDrop.smol checks o t ops1).1.clock
    have e := history_append SmolWire.step (SmolWire.new checks o t) ops1 ops2
    have e1 : smolWire checks o t (ops1 ++ ops2) = ((smolWire checks o t ops1).runOps ops2).1 := (congrArg Prod.fst e :)
    have e2 : smolWireTrace checks o t (ops1 ++ ops2) = smolWireTrace checks o t ops1 ++ ((smolWire checks o t ops1).runOps ops2).2 :=
      (congrArg Prod.snd e :)
    rw [htr, List.append_cancel_left_eq] at e2
    rw [e1]
    rw [e2] at hquiet hunheard
    exact SilenceDrop.smol (SilenceDrop.smol_good checks o t ops1) ⟨h1.action, h1.await⟩ ops2 hquiet hunheard
  obtain ⟨hk, hp⟩ := C43_interval_in_force_dropped_smol checks o t (ops1 ++ ops2)
  rw [← hk] at hdue
  obtain ⟨s', h | h⟩ := Smol.timer_due hr hlive halive (hp.trans hon) hclock hsince hdue
  · exact ⟨⟨s', _, _⟩, .inl (by simp only [SmolWire.step, h]; rfl)⟩
  · exact ⟨⟨s', _, _⟩, .inr (by simp only [SmolWire.step, h]; rfl)⟩

/-- the hypotheses can be met: `run` is dropped in the middle of a PINGREQ and called again, and the PINGREQ is still due -/
example :
    let ops1 : List TokioWireOp := tokioUp.map .op
    let ops2 : List TokioWireOp := [.drop .timer (.writing 1) 0 (at' (sec 10 + 1)), .op .start]
    tokioWireTrace resumeOptions 0 (ops1 ++ ops2) = tokioWireTrace resumeOptions 0 ops1 ++ [.cancelled, .started] ∧
    isRunning (tokioWireTrace resumeOptions 0 (ops1 ++ ops2)) = true ∧ (tokioWire resumeOptions 0 ops1).net.now = 1 ∧
    (at' (sec 10 + 2)).ok (tokioWire resumeOptions 0 (ops1 ++ ops2)).net.now = true ∧
    (ka resumeOptions.keepAlive (tokioWireTrace resumeOptions 0 (ops1 ++ ops2))).on = true ∧
    (ka resumeOptions.keepAlive (tokioWireTrace resumeOptions 0 (ops1 ++ ops2))).interval = sec 10 := ⟨rfl, rfl, rfl, rfl, rfl, rfl⟩

example :
    let ops1 : List SmolWireOp := smolUp.map .op
    let ops2 : List SmolWireOp := [.drop .timer (.writing 1) (at' (sec 10 + 1)), .op .start]
    smolWireTrace true resumeOptions 0 (ops1 ++ ops2) = smolWireTrace true resumeOptions 0 ops1 ++ [.cancelled, .started] ∧
    isRunning (smolWireTrace true resumeOptions 0 (ops1 ++ ops2)) = true ∧ (smolWire true resumeOptions 0 ops1).net.now = 1 ∧
    (at' (sec 10 + 2)).ok (smolWire true resumeOptions 0 (ops1 ++ ops2)).net.now = true ∧
    (ka resumeOptions.keepAlive (smolWireTrace true resumeOptions 0 (ops1 ++ ops2))).on = true ∧
    (ka resumeOptions.keepAlive (smolWireTrace true resumeOptions 0 (ops1 ++ ops2))).interval = sec 10 := ⟨rfl, rfl, rfl, rfl, rfl, rfl⟩

end Mqrstt.Props
