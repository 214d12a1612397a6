import Verif.Props.Untimed
import Verif.Proof.IdentityDrop
/-!
# Who connects matters to CONNECT only, also where futures are dropped (C121)
-/

namespace Mqrstt.Props
open Mqrstt Mqrstt.Spec

/-- **C121.** tokio, where the futures of `run` and `connect` may be dropped anywhere. -/
theorem C121_tokio_dropped (o o' : Options) (hm : SameManner o o') (h : ∃ b, o.connectPacket.asyncWrite = .ok b)
    (h' : ∃ b, o'.connectPacket.asyncWrite = .ok b) (t : Nat) (ops : List TokioWireOp) :
    tokioWireTrace o' t ops = (tokioWireTrace o t ops).map (asIf o') :=
  IdentDrop.tokioWire o o' hm h h' t ops

/-- **C121.** smol, where the futures of `run` and `connect` may be dropped anywhere. -/
theorem C121_smol_dropped (checks : Bool) (o o' : Options) (hm : SameManner o o') (h : ∃ b, o.connectPacket.write = .ok b)
    (h' : ∃ b, o'.connectPacket.write = .ok b) (t : Nat) (ops : List SmolWireOp) :
    smolWireTrace checks o' t ops = (smolWireTrace checks o t ops).map (asIf o') :=
  IdentDrop.smolWire o o' checks hm h h' t ops

/-- `run` dropped while it writes, and called again by someone else -/
example : SameManner resumeOptions someoneElse ∧ (∃ b, resumeOptions.connectPacket.asyncWrite = .ok b) ∧
    (∃ b, someoneElse.connectPacket.asyncWrite = .ok b) ∧
    .wrote someoneElse.connectPacket 1 1 ∈ tokioWireTrace someoneElse 0
      (tokioReady .atMostOnce ++ [.drop .outgoing (.writing 7) 0 (at' 2)] ++ tokioBye) ∧
    .cancelled ∈ tokioWireTrace someoneElse 0 (tokioReady .atMostOnce ++ [.drop .outgoing (.writing 7) 0 (at' 2)] ++ tokioBye) := by
  obtain ⟨b, c, d, e, f, g, r, h⟩ : ∃ b c d e f g r, tokioWireTrace someoneElse 0
    (tokioReady .atMostOnce ++ [.drop .outgoing (.writing 7) 0 (at' 2)] ++ tokioBye) =
      [.wrote someoneElse.connectPacket 1 1, b, c, d, e, f, g, .cancelled] ++ r := ⟨_, _, _, _, _, _, _, rfl⟩
  refine ⟨⟨rfl, rfl, rfl, rfl, rfl⟩, ⟨_, rfl⟩, ⟨_, rfl⟩, ?_, ?_⟩ <;> rw [h] <;> simp

example : SameManner resumeOptions someoneElse ∧ (∃ b, resumeOptions.connectPacket.write = .ok b) ∧
    (∃ b, someoneElse.connectPacket.write = .ok b) ∧
    .wrote someoneElse.connectPacket 1 1 ∈ smolWireTrace true someoneElse 0
      (smolReady .atMostOnce ++ [.drop .outgoing (.writing 7) (at' 2)] ++ smolBye) ∧
    .cancelled ∈ smolWireTrace true someoneElse 0 (smolReady .atMostOnce ++ [.drop .outgoing (.writing 7) (at' 2)] ++ smolBye) := by
  obtain ⟨b, c, d, e, f, g, r, h⟩ : ∃ b c d e f g r, smolWireTrace true someoneElse 0
    (smolReady .atMostOnce ++ [.drop .outgoing (.writing 7) (at' 2)] ++ smolBye) =
      [.wrote someoneElse.connectPacket 1 1, b, c, d, e, f, g, .cancelled] ++ r := ⟨_, _, _, _, _, _, _, rfl⟩
  refine ⟨⟨rfl, rfl, rfl, rfl, rfl⟩, ⟨_, rfl⟩, ⟨_, rfl⟩, ?_, ?_⟩ <;> rw [h] <;> simp

end Mqrstt.Props
