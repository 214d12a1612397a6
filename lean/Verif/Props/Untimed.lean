import Verif.Props.Identity
import Verif.Props.Dropped
import Verif.Proof.Untimed
/-!
# The keep-alive time matters to the timer only (C124)
-/

namespace Mqrstt.Props
open Mqrstt Mqrstt.Spec

/-- **C124.** tokio: two configurations that agree in clean start and the limits, and both have a CONNECT that can be encoded, show
the same in every history in which the keep-alive timer never fires, whatever their keep-alive times and whatever keep-alive times
the servers demand, apart from the content of CONNECT. -/
theorem C124_tokio (o o' : Options) (hl : SameLimits o o') (h : ∃ b, o.connectPacket.asyncWrite = .ok b)
    (h' : ∃ b, o'.connectPacket.asyncWrite = .ok b) (t : Nat) (ops : List TokioOp) (ho : ∀ op ∈ ops, tokioUntimed op) :
    (tokioTrace o t ops).map butConnect = (tokioTrace o' t ops).map butConnect :=
  Untimed.tokio o o' hl h h' t ops ho

/-- **C124.** The same for smol. -/
theorem C124_smol (checks : Bool) (o o' : Options) (hl : SameLimits o o') (h : ∃ b, o.connectPacket.write = .ok b)
    (h' : ∃ b, o'.connectPacket.write = .ok b) (t : Nat) (ops : List SmolOp) (ho : ∀ op ∈ ops, smolUntimed op) :
    (smolTrace checks o t ops).map butConnect = (smolTrace checks o' t ops).map butConnect :=
  Untimed.smol checks o o' hl h h' t ops ho

/-- **C124.** tokio, where the futures of `run` and `connect` may be dropped anywhere. -/
theorem C124_tokio_dropped (o o' : Options) (hl : SameLimits o o') (h : ∃ b, o.connectPacket.asyncWrite = .ok b)
    (h' : ∃ b, o'.connectPacket.asyncWrite = .ok b) (t : Nat) (ops : List TokioWireOp) (ho : ∀ op ∈ ops, tokioWireUntimed op) :
    (tokioWireTrace o t ops).map butConnect = (tokioWireTrace o' t ops).map butConnect :=
  Untimed.tokioWire o o' hl h h' t ops ho

/-- **C124.** smol, where the futures of `run` and `connect` may be dropped anywhere. -/
theorem C124_smol_dropped (checks : Bool) (o o' : Options) (hl : SameLimits o o') (h : ∃ b, o.connectPacket.write = .ok b)
    (h' : ∃ b, o'.connectPacket.write = .ok b) (t : Nat) (ops : List SmolWireOp) (ho : ∀ op ∈ ops, smolWireUntimed op) :
    (smolWireTrace checks o t ops).map butConnect = (smolWireTrace checks o' t ops).map butConnect :=
  Untimed.smolWire checks o o' hl h h' t ops ho

/-- keep-alive switched off -/
def neverPings : Options := { resumeOptions with keepAlive := 0 }

/-- a message that is not acknowledged, with and without keep-alive -/
example : SameLimits resumeOptions neverPings ∧ resumeOptions.keepAlive ≠ neverPings.keepAlive ∧
    (∃ b, resumeOptions.connectPacket.asyncWrite = .ok b) ∧ (∃ b, neverPings.connectPacket.asyncWrite = .ok b) ∧
    (∀ op ∈ tokioUnacked, tokioUntimed op) ∧ ∃ p, .wrote p 2 2 ∈ tokioTrace neverPings 0 tokioUnacked := by
  obtain ⟨c, x, p, r, e⟩ : ∃ c x p r, tokioTrace neverPings 0 tokioUnacked = [.wrote c 1 1, .read (.connAck x), .delivered (.connAck x),
      .connected x 1, .started, .user (.called (.publish ⟨[97], by decide⟩ .atLeastOnce false [] .empty) (some 1) p),
      .user (.submitted p), .wrote p 2 2, .ended r] := ⟨_, _, _, _, rfl⟩
  refine ⟨⟨rfl, rfl, rfl, rfl⟩, by decide, ⟨_, rfl⟩, ⟨_, rfl⟩, ?_, p, by rw [e]; simp⟩
  simp [tokioUnacked, tokioUp, tokioUntimed]

example : SameLimits resumeOptions neverPings ∧ resumeOptions.keepAlive ≠ neverPings.keepAlive ∧
    (∃ b, resumeOptions.connectPacket.write = .ok b) ∧ (∃ b, neverPings.connectPacket.write = .ok b) ∧
    (∀ op ∈ smolUnacked, smolUntimed op) ∧ ∃ p, .wrote p 2 2 ∈ smolTrace true neverPings 0 smolUnacked := by
  obtain ⟨c, x, p, r, e⟩ : ∃ c x p r, smolTrace true neverPings 0 smolUnacked = [.wrote c 1 1, .read (.connAck x), .delivered (.connAck x),
      .connected x 1, .started, .user (.called (.publish ⟨[97], by decide⟩ .atLeastOnce false [] .empty) (some 1) p),
      .user (.submitted p), .wrote p 2 2, .ended r] := ⟨_, _, _, _, rfl⟩
  refine ⟨⟨rfl, rfl, rfl, rfl⟩, by decide, ⟨_, rfl⟩, ⟨_, rfl⟩, ?_, p, by rw [e]; simp⟩
  simp [smolUnacked, smolUp, smolUntimed]

/-- `run` dropped while it writes, and called again -/
example : (∀ op ∈ tokioReady .atMostOnce ++ [.drop .outgoing (.writing 7) 0 (at' 2)] ++ tokioBye, tokioWireUntimed op) ∧
    .cancelled ∈ tokioWireTrace neverPings 0 (tokioReady .atMostOnce ++ [.drop .outgoing (.writing 7) 0 (at' 2)] ++ tokioBye) := by
  refine ⟨by simp [tokioReady, tokioBye, tokioUp, tokioWireUntimed, tokioUntimed], ?_⟩
  obtain ⟨a, b, c, d, e, f, g, r, h⟩ : ∃ a b c d e f g r, tokioWireTrace neverPings 0
    (tokioReady .atMostOnce ++ [.drop .outgoing (.writing 7) 0 (at' 2)] ++ tokioBye) = [a, b, c, d, e, f, g, .cancelled] ++ r :=
    ⟨_, _, _, _, _, _, _, _, rfl⟩
  rw [h]
  simp

example : (∀ op ∈ smolReady .atMostOnce ++ [.drop .outgoing (.writing 7) (at' 2)] ++ smolBye, smolWireUntimed op) ∧
    .cancelled ∈ smolWireTrace true neverPings 0 (smolReady .atMostOnce ++ [.drop .outgoing (.writing 7) (at' 2)] ++ smolBye) := by
  refine ⟨by simp [smolReady, smolBye, smolUp, smolWireUntimed, smolUntimed], ?_⟩
  obtain ⟨a, b, c, d, e, f, g, r, h⟩ : ∃ a b c d e f g r, smolWireTrace true neverPings 0
    (smolReady .atMostOnce ++ [.drop .outgoing (.writing 7) (at' 2)] ++ smolBye) = [a, b, c, d, e, f, g, .cancelled] ++ r :=
    ⟨_, _, _, _, _, _, _, _, rfl⟩
  rw [h]
  simp

end Mqrstt.Props
