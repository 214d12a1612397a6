import Verif.Props.Connecting
import Verif.Proof.Release
/-!
# With and without overflow checks (C122)
-/

namespace Mqrstt.Props
open Mqrstt Mqrstt.Spec

/-- **C122**, the part that holds: what a debug build (with overflow checks) shows without a panic, a release build (without them)
shows as well, exactly, in the same history. Missing: histories in which the debug build panics. -/
theorem C122_smol_partial (o : Options) (t : Nat) (ops : List SmolOp)
    (h : .ended .panicked ∉ smolTrace true o t ops ∧ .connectPanicked ∉ smolTrace true o t ops) :
    smolTrace false o t ops = smolTrace true o t ops := by
  have e := Release.history (Smol.new true o t) ops h
  show (history Smol.step (Smol.new false o t) ops).2 = (history Smol.step (Smol.new true o t) ops).2
  rw [show Smol.new false o t = Release.rel (Smol.new true o t) from rfl, e]

/-- a message that arrives in two pieces, the second of one byte -/
def cutMessage : List SmolOp :=
  smolUp ++ [.turn (.read [0x30, 5, 0, 1, 116, 0]) true (at' 2), .turn (.read [7]) true (at' 3)]

/-- **C122 is false of the code**: a message of which the last byte arrives later makes the debug build panic; the release build
waits for the byte and delivers the message. -/
theorem C122_smol_violated :
    .ended .panicked ∈ smolTrace true resumeOptions 0 cutMessage ∧
    .ended .panicked ∉ smolTrace false resumeOptions 0 cutMessage ∧
    .delivered (.publish ⟨false, .atMostOnce, false, ⟨[116], by decide⟩, none, .empty, [7]⟩) ∈ smolTrace false resumeOptions 0 cutMessage := by
  obtain ⟨c, x, e⟩ : ∃ c x, smolTrace true resumeOptions 0 cutMessage = [.wrote c 1 1, .read (.connAck x), .delivered (.connAck x),
      .connected x 1, .started, .ended .panicked] := ⟨_, _, rfl⟩
  obtain ⟨c', x', p, e', hp⟩ : ∃ c x p, smolTrace false resumeOptions 0 cutMessage = [.wrote c 1 1, .read (.connAck x),
      .delivered (.connAck x), .connected x 1, .started, .read p, .delivered p] ∧
      p = .publish ⟨false, .atMostOnce, false, ⟨[116], by decide⟩, none, .empty, [7]⟩ := ⟨_, _, _, rfl, rfl⟩
  rw [e, e', hp]
  simp

/-- a message sent, a broken connection: no panic -/
example : (.ended .panicked ∉ smolTrace true resumeOptions 0 smolUnacked ∧ .connectPanicked ∉ smolTrace true resumeOptions 0 smolUnacked) ∧
    ∃ p, .wrote p 2 2 ∈ smolTrace true resumeOptions 0 smolUnacked := by
  obtain ⟨c, x, p, r, e, hr⟩ : ∃ c x p r, smolTrace true resumeOptions 0 smolUnacked = [.wrote c 1 1, .read (.connAck x), .delivered (.connAck x),
      .connected x 1, .started, .user (.called (.publish ⟨[97], by decide⟩ .atLeastOnce false [] .empty) (some 1) p),
      .user (.submitted p), .wrote p 2 2, .ended (.error r)] ∧ r = .io := ⟨_, _, _, _, rfl, rfl⟩
  rw [e]
  exact ⟨by simp, p, by simp⟩

end Mqrstt.Props
