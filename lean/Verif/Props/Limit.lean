import Verif.Props.Identity
import Verif.Proof.Limit
/-!
# A limit that is not reached has no effect (C123)
-/

namespace Mqrstt.Props
open Mqrstt Mqrstt.Spec

/-- **C123.** tokio: if no call is refused because its packet would be too large, the same history shows the same with every larger
maximum packet size, apart from the content of CONNECT. -/
theorem C123_tokio (o o' : Options) (hr : Roomier o o') (h : ∃ b, o.connectPacket.asyncWrite = .ok b)
    (h' : ∃ b, o'.connectPacket.asyncWrite = .ok b) (t : Nat) (ops : List TokioOp) (hn : NoneTooLarge (tokioTrace o t ops)) :
    tokioTrace o' t ops = (tokioTrace o t ops).map (asIf o') := by
  have new : Tokio.new o' t = Limit.tk o' (Tokio.new o t) := by
    unfold Tokio.new Limit.tk
    rw [Limit.roomier_sys hr]
    simp only [hr.keepAlive]
  have := Limit.history Tokio.step (Limit.TokioOf o o') (Limit.tk o') (asIf o') (Limit.tk_step o o' h h') (Limit.tokioOf_step o o')
    (Tokio.new o t) ⟨⟨.new o, o.keepAlive, rfl⟩, hr.limit⟩ ops hn
  rw [← new] at this
  exact congrArg Prod.snd this

/-- **C123.** The same for smol. -/
theorem C123_smol (checks : Bool) (o o' : Options) (hr : Roomier o o') (h : ∃ b, o.connectPacket.write = .ok b)
    (h' : ∃ b, o'.connectPacket.write = .ok b) (t : Nat) (ops : List SmolOp) (hn : NoneTooLarge (smolTrace checks o t ops)) :
    smolTrace checks o' t ops = (smolTrace checks o t ops).map (asIf o') := by
  have new : Smol.new checks o' t = Limit.sm o' (Smol.new checks o t) := by
    unfold Smol.new Limit.sm
    rw [Limit.roomier_sys hr, hr.keepAlive]
  have := Limit.history Smol.step (Limit.SmolOf o o') (Limit.sm o') (asIf o') (Limit.sm_step o o' hr.keepAlive h h') (Limit.smolOf_step o o')
    (Smol.new checks o t) ⟨⟨.new o, ⟨rfl, by simp [Smol.new]⟩, rfl⟩, hr.limit⟩ ops hn
  rw [← new] at this
  exact congrArg Prod.snd this

/-- packets of at most 100 bytes -/
def tightOptions : Options := { resumeOptions with maxPacketSize := some 100 }

/-- a message is sent under a limit of 100 bytes -/
example : Roomier tightOptions resumeOptions ∧ (∃ b, tightOptions.connectPacket.asyncWrite = .ok b) ∧
    (∃ b, resumeOptions.connectPacket.asyncWrite = .ok b) ∧ NoneTooLarge (tokioTrace tightOptions 0 tokioUnacked) ∧
    ∃ p, .wrote p 2 2 ∈ tokioTrace tightOptions 0 tokioUnacked := by
  obtain ⟨c, x, p, r, e⟩ : ∃ c x p r, tokioTrace tightOptions 0 tokioUnacked = [.wrote c 1 1, .read (.connAck x), .delivered (.connAck x),
      .connected x 1, .started, .user (.called (.publish ⟨[97], by decide⟩ .atLeastOnce false [] .empty) (some 1) p),
      .user (.submitted p), .wrote p 2 2, .ended r] := ⟨_, _, _, _, rfl⟩
  refine ⟨⟨rfl, rfl, rfl, rfl, by decide⟩, ⟨_, rfl⟩, ⟨_, rfl⟩, ?_⟩
  rw [e]
  exact ⟨fun q id n => by simp, p, by simp⟩

example : Roomier tightOptions resumeOptions ∧ (∃ b, tightOptions.connectPacket.write = .ok b) ∧
    (∃ b, resumeOptions.connectPacket.write = .ok b) ∧ NoneTooLarge (smolTrace true tightOptions 0 smolUnacked) ∧
    ∃ p, .wrote p 2 2 ∈ smolTrace true tightOptions 0 smolUnacked := by
  obtain ⟨c, x, p, r, e⟩ : ∃ c x p r, smolTrace true tightOptions 0 smolUnacked = [.wrote c 1 1, .read (.connAck x), .delivered (.connAck x),
      .connected x 1, .started, .user (.called (.publish ⟨[97], by decide⟩ .atLeastOnce false [] .empty) (some 1) p),
      .user (.submitted p), .wrote p 2 2, .ended r] := ⟨_, _, _, _, rfl⟩
  refine ⟨⟨rfl, rfl, rfl, rfl, by decide⟩, ⟨_, rfl⟩, ⟨_, rfl⟩, ?_⟩
  rw [e]
  exact ⟨fun q id n => by simp, p, by simp⟩

end Mqrstt.Props
