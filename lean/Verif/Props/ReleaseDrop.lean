import Verif.Props.Release
import Verif.Props.Dropped
import Verif.Proof.ReleaseDrop
/-!
# With and without overflow checks, also where futures are dropped (C122)
-/

namespace Mqrstt.Props
open Mqrstt Mqrstt.Spec

/-- **C122**, the part that holds, where the futures of `run` and `connect` may be dropped anywhere: a history that the debug build
can go through without a panic shows the same in the release build and leaves the same bytes on the wire. Missing: histories in
which the debug build panics (`C122_smol_violated`). -/
theorem C122_smol_dropped_partial (o : Options) (t : Nat) (ops : List SmolWireOp) (hp : Possible (.new true o t) ops)
    (h : .ended .panicked ∉ smolWireTrace true o t ops ∧ .connectPanicked ∉ smolWireTrace true o t ops) :
    smolWireTrace false o t ops = smolWireTrace true o t ops ∧
    ((SmolWire.new false o t).runOps ops).1.wire = ((SmolWire.new true o t).runOps ops).1.wire := by
  have e := Release.wireHistory (.new true o t) ops hp h
  have n : SmolWire.new false o t = Release.wrel (.new true o t) := rfl
  refine ⟨?_, ?_⟩
  · show ((SmolWire.new false o t).runOps ops).2 = ((SmolWire.new true o t).runOps ops).2
    rw [n, e]
  · rw [n, e]
    rfl

/-- `run` dropped after seven bytes of a message -/
example : Possible (.new true resumeOptions 0) (smolReady .atMostOnce ++ [.drop .outgoing (.writing 7) (at' 2)]) ∧
    (.ended .panicked ∉ smolWireTrace true resumeOptions 0 (smolReady .atMostOnce ++ [.drop .outgoing (.writing 7) (at' 2)]) ∧
      .connectPanicked ∉ smolWireTrace true resumeOptions 0 (smolReady .atMostOnce ++ [.drop .outgoing (.writing 7) (at' 2)])) ∧
    .cancelled ∈ smolWireTrace true resumeOptions 0 (smolReady .atMostOnce ++ [.drop .outgoing (.writing 7) (at' 2)]) := by
  obtain ⟨c, x, q, id, p, h⟩ : ∃ c x q id p, smolWireTrace true resumeOptions 0
    (smolReady .atMostOnce ++ [.drop .outgoing (.writing 7) (at' 2)]) = [.wrote c 1 1, .read (.connAck x), .delivered (.connAck x),
      .connected x 1, .started, .user (.called q id p), .user (.submitted p), .cancelled] := ⟨_, _, _, _, _, rfl⟩
  refine ⟨⟨_, _, rfl, _, _, rfl, _, _, rfl, _, _, rfl, _, _, rfl, trivial⟩, ?_⟩
  rw [h]
  simp

end Mqrstt.Props
