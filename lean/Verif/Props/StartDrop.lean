import Verif.Proof.StartDrop
import Verif.Props.KeepAliveDrop
/-! # When `run` starts, also after futures have been dropped (C36) -/

namespace Mqrstt.Props
open Mqrstt Mqrstt.Spec _root_.Spec

/-- **C36, tokio**, in every history in which the futures of `run` and `connect` may also be dropped anywhere: `run` starts only on
a connection made by a successful `connect` and not ended since, and reports "no network" only without one. -/
theorem C36_dropped_needs_connect_tokio (o : Options) (t : Nat) (ops : List TokioWireOp) (pre post : List Obs) :
    (tokioWireTrace o t ops = pre ++ .started :: post → isUp pre = true) ∧
    (tokioWireTrace o t ops = pre ++ .ended (.error .noNetwork) :: post → isUp pre = false) :=
  ⟨(StartDrop.tokio o t ops).started pre post, (StartDrop.tokio o t ops).none pre post⟩

/-- **C36, smol**, also with dropped futures. -/
theorem C36_dropped_needs_connect_smol (checks : Bool) (o : Options) (t : Nat) (ops : List SmolWireOp) (pre post : List Obs) :
    (smolWireTrace checks o t ops = pre ++ .started :: post → isUp pre = true) ∧
    (smolWireTrace checks o t ops = pre ++ .ended (.error .noNetwork) :: post → isUp pre = false) :=
  ⟨(StartDrop.smol checks o t ops).started pre post, (StartDrop.smol checks o t ops).none pre post⟩

/-- **C36, tokio**, also with dropped futures: with a connection `run` starts, in particular on the one a dropped `run` left; without
one it reports that at once. Neither changes the session. -/
theorem C36_dropped_start_tokio (o : Options) (t : Nat) (ops : List TokioWireOp) (hnet : (tokioWire o t ops).net.sys.alive = true)
    (hidle : isRunning (tokioWireTrace o t ops) = false) :
    (isUp (tokioWireTrace o t ops) = true →
      ∃ s', (tokioWire o t ops).step (.op .start) = some (s', [.started]) ∧ s'.net.sys = (tokioWire o t ops).net.sys) ∧
    (isUp (tokioWireTrace o t ops) = false →
      ∃ s', (tokioWire o t ops).step (.op .start) = some (s', [.ended (.error .noNetwork)]) ∧ s'.net = (tokioWire o t ops).net) := by
  have hup : (tokioWire o t ops).net.network.isSome = isUp (tokioWireTrace o t ops) := (StartDrop.tokio o t ops).up
  have hrun : (tokioWire o t ops).net.run = none := by
    have : (tokioWire o t ops).net.run.isSome = false := (tokio_interrupted o t ops).2.trans hidle
    simpa using this
  constructor
  · intro hu
    obtain ⟨c, hc⟩ := Option.isSome_iff_exists.1 (hup.trans hu)
    have hc : (tokioWire o t ops).net.network = some c := hc
    exact ⟨⟨{ (tokioWire o t ops).net with run := some none }, _⟩, by simp only [TokioWire.step, Tokio.step, hrun, hnet, hc]; rfl, rfl⟩
  · intro hu
    have hc : (tokioWire o t ops).net.network = none := by simpa using hup.trans hu
    exact ⟨⟨(tokioWire o t ops).net, TokioWire.advance (tokioWire o t ops).wire .start [.ended (.error .noNetwork)]⟩, by simp only [TokioWire.step, Tokio.step, hrun, hnet, hc]; rfl, rfl⟩

/-- **C36, smol**, also with dropped futures. -/
theorem C36_dropped_start_smol (checks : Bool) (o : Options) (t : Nat) (ops : List SmolWireOp)
    (hnet : (smolWire checks o t ops).net.sys.alive = true) (hidle : isRunning (smolWireTrace checks o t ops) = false) :
    (isUp (smolWireTrace checks o t ops) = true →
      ∃ s', (smolWire checks o t ops).step (.op .start) = some (s', [.started]) ∧ s'.net.sys = (smolWire checks o t ops).net.sys) ∧
    (isUp (smolWireTrace checks o t ops) = false →
      ∃ s', (smolWire checks o t ops).step (.op .start) = some (s', [.ended (.error .noNetwork)]) ∧
        s'.net = (smolWire checks o t ops).net) := by
  have hup : (smolWire checks o t ops).net.network.isSome = isUp (smolWireTrace checks o t ops) := (StartDrop.smol checks o t ops).up
  have hrun : (smolWire checks o t ops).net.running = false := (smol_interrupted checks o t ops).2.trans hidle
  constructor
  · intro hu
    obtain ⟨c, hc⟩ := Option.isSome_iff_exists.1 (hup.trans hu)
    have hc : (smolWire checks o t ops).net.network = some c := hc
    exact ⟨⟨{ (smolWire checks o t ops).net with running := true }, _, _⟩,
      by simp only [SmolWire.step, Smol.step, hrun, hnet, hc]; rfl, rfl⟩
  · intro hu
    have hc : (smolWire checks o t ops).net.network = none := by simpa using hup.trans hu
    exact ⟨⟨(smolWire checks o t ops).net, _, _⟩, by simp only [SmolWire.step, Smol.step, hrun, hnet, hc]; rfl, rfl⟩

/-- the hypotheses can be met: `run` was dropped in the middle of a PINGREQ, and the connection is still there -/
example : let ops : List TokioWireOp := tokioUp.map .op ++ [.drop .timer (.writing 1) 0 (at' (sec 10 + 1))]
    (tokioWire resumeOptions 0 ops).net.sys.alive = true ∧ isRunning (tokioWireTrace resumeOptions 0 ops) = false ∧
      isUp (tokioWireTrace resumeOptions 0 ops) = true := ⟨rfl, rfl, rfl⟩

/-- a dropped `connect` makes no connection -/
example : let ops : List SmolWireOp := [.dropConnect ⟨true, [plainConnAck], true, at' 1⟩ .handling]
    (smolWire true resumeOptions 0 ops).net.sys.alive = true ∧ isRunning (smolWireTrace true resumeOptions 0 ops) = false ∧
      isUp (smolWireTrace true resumeOptions 0 ops) = false := ⟨rfl, rfl, rfl⟩

end Mqrstt.Props
