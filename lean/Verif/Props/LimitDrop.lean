import Verif.Props.Limit
import Verif.Props.Dropped
import Verif.Proof.LimitDrop
/-!
# A limit that is not reached has no effect, also where futures are dropped (C123)
-/

namespace Mqrstt.Props
open Mqrstt Mqrstt.Spec

/-- **C123.** tokio, where the futures of `run` and `connect` may be dropped anywhere. -/
theorem C123_tokio_dropped (o o' : Options) (hr : Roomier o o') (h : ∃ b, o.connectPacket.asyncWrite = .ok b)
    (h' : ∃ b, o'.connectPacket.asyncWrite = .ok b) (t : Nat) (ops : List TokioWireOp) (hn : NoneTooLarge (tokioWireTrace o t ops)) :
    tokioWireTrace o' t ops = (tokioWireTrace o t ops).map (asIf o') :=
  LimitDrop.tokioWire o o' hr h h' t ops hn

/-- **C123.** smol, where the futures of `run` and `connect` may be dropped anywhere. -/
theorem C123_smol_dropped (checks : Bool) (o o' : Options) (hr : Roomier o o') (h : ∃ b, o.connectPacket.write = .ok b)
    (h' : ∃ b, o'.connectPacket.write = .ok b) (t : Nat) (ops : List SmolWireOp) (hn : NoneTooLarge (smolWireTrace checks o t ops)) :
    smolWireTrace checks o' t ops = (smolWireTrace checks o t ops).map (asIf o') :=
  LimitDrop.smolWire o o' checks hr h h' t ops hn

/-- `run` dropped while it writes, under a limit of 100 bytes -/
example : Roomier tightOptions resumeOptions ∧ (∃ b, tightOptions.connectPacket.asyncWrite = .ok b) ∧
    (∃ b, resumeOptions.connectPacket.asyncWrite = .ok b) ∧
    NoneTooLarge (tokioWireTrace tightOptions 0 (tokioReady .atMostOnce ++ [.drop .outgoing (.writing 7) 0 (at' 2)])) ∧
    .cancelled ∈ tokioWireTrace tightOptions 0 (tokioReady .atMostOnce ++ [.drop .outgoing (.writing 7) 0 (at' 2)]) := by
  obtain ⟨c, x, q, id, p, h⟩ : ∃ c x q id p, tokioWireTrace tightOptions 0
    (tokioReady .atMostOnce ++ [.drop .outgoing (.writing 7) 0 (at' 2)]) = [.wrote c 1 1, .read (.connAck x), .delivered (.connAck x),
      .connected x 1, .started, .user (.called q id p), .user (.submitted p), .cancelled] := ⟨_, _, _, _, _, rfl⟩
  refine ⟨⟨rfl, rfl, rfl, rfl, by decide⟩, ⟨_, rfl⟩, ⟨_, rfl⟩, ?_⟩
  rw [h]
  exact ⟨fun q id n => by simp, by simp⟩

example : Roomier tightOptions resumeOptions ∧ (∃ b, tightOptions.connectPacket.write = .ok b) ∧
    (∃ b, resumeOptions.connectPacket.write = .ok b) ∧
    NoneTooLarge (smolWireTrace true tightOptions 0 (smolReady .atMostOnce ++ [.drop .outgoing (.writing 7) (at' 2)])) ∧
    .cancelled ∈ smolWireTrace true tightOptions 0 (smolReady .atMostOnce ++ [.drop .outgoing (.writing 7) (at' 2)]) := by
  obtain ⟨c, x, q, id, p, h⟩ : ∃ c x q id p, smolWireTrace true tightOptions 0
    (smolReady .atMostOnce ++ [.drop .outgoing (.writing 7) (at' 2)]) = [.wrote c 1 1, .read (.connAck x), .delivered (.connAck x),
      .connected x 1, .started, .user (.called q id p), .user (.submitted p), .cancelled] := ⟨_, _, _, _, _, rfl⟩
  refine ⟨⟨rfl, rfl, rfl, rfl, by decide⟩, ⟨_, rfl⟩, ⟨_, rfl⟩, ?_⟩
  rw [h]
  exact ⟨fun q id n => by simp, by simp⟩

end Mqrstt.Props
