import Verif.Props.Connecting
import Verif.Proof.Identity
/-!
# Who connects matters to CONNECT only (C121)
-/

namespace Mqrstt.Props
open Mqrstt Mqrstt.Spec

/-- **C121.** tokio: let two configurations differ only in client identifier, user name, password, last will, authentication,
session expiry, topic alias maximum, user properties and requested information, and let both have a CONNECT that can be encoded.
Then the same history shows the same with either, apart from the content of CONNECT. -/
theorem C121_tokio (o o' : Options) (hm : SameManner o o') (h : ∃ b, o.connectPacket.asyncWrite = .ok b)
    (h' : ∃ b, o'.connectPacket.asyncWrite = .ok b) (t : Nat) (ops : List TokioOp) :
    tokioTrace o' t ops = (tokioTrace o t ops).map (asIf o') := by
  have new : Tokio.new o' t = Ident.tk o' (Tokio.new o t) := by
    unfold Tokio.new Ident.tk
    rw [Ident.same_sys hm]
    simp only [hm.keepAlive]
  have := Ident.history Tokio.step (Ident.TokioOf o) (Ident.tk o') (asIf o') (Ident.tk_step o o' h h') (Ident.tokioOf_step o)
    (Tokio.new o t) ⟨.new o, o.keepAlive, rfl⟩ ops
  rw [← new] at this
  exact congrArg Prod.snd this

/-- **C121.** The same for smol. -/
theorem C121_smol (checks : Bool) (o o' : Options) (hm : SameManner o o') (h : ∃ b, o.connectPacket.write = .ok b)
    (h' : ∃ b, o'.connectPacket.write = .ok b) (t : Nat) (ops : List SmolOp) :
    smolTrace checks o' t ops = (smolTrace checks o t ops).map (asIf o') := by
  have new : Smol.new checks o' t = Ident.sm o' (Smol.new checks o t) := by
    unfold Smol.new Ident.sm
    rw [Ident.same_sys hm, hm.keepAlive]
  have := Ident.history Smol.step (Ident.SmolOf o) (Ident.sm o') (asIf o') (Ident.sm_step o o' hm.keepAlive h h') (Ident.smolOf_step o)
    (Smol.new checks o t) ⟨.new o, ⟨rfl, by simp [Smol.new]⟩, rfl⟩ ops
  rw [← new] at this
  exact congrArg Prod.snd this

/-- another client identifier, with a user name, a password and a last will -/
def someoneElse : Options :=
  { resumeOptions with
    clientId := ⟨[98], by decide⟩
    username := some ⟨[117], by decide⟩
    password := some ⟨[112], by decide⟩
    lastWill := some ⟨.atLeastOnce, true, .empty, ⟨[119], by decide⟩, [1]⟩ }

/-- a message not acknowledged is sent again, whoever connects, and the CONNECTs differ -/
example : SameManner resumeOptions someoneElse ∧ (∃ b, resumeOptions.connectPacket.asyncWrite = .ok b) ∧
    (∃ b, someoneElse.connectPacket.asyncWrite = .ok b) ∧ resumeOptions.connectPacket ≠ someoneElse.connectPacket ∧
    .wrote resumeOptions.connectPacket 1 1 ∈ tokioTrace resumeOptions 0 tokioUnacked ∧
    .wrote someoneElse.connectPacket 1 1 ∈ tokioTrace someoneElse 0 tokioUnacked := by
  have hm : SameManner resumeOptions someoneElse := ⟨rfl, rfl, rfl, rfl, rfl⟩
  have ha : ∃ b, resumeOptions.connectPacket.asyncWrite = .ok b := ⟨_, rfl⟩
  have hb : ∃ b, someoneElse.connectPacket.asyncWrite = .ok b := ⟨_, rfl⟩
  have hw : .wrote resumeOptions.connectPacket 1 1 ∈ tokioTrace resumeOptions 0 tokioUnacked := .head _
  refine ⟨hm, ha, hb, ?_, hw, ?_⟩
  · intro e
    have : (some ⟨[117], by decide⟩ : Option Str) = none := by
      injection e with e
      exact (congrArg Connect.username e).symm
    exact absurd this nofun
  · rw [C121_tokio _ _ hm ha hb]
    exact List.mem_map.mpr ⟨_, hw, rfl⟩

example : SameManner resumeOptions someoneElse ∧ (∃ b, resumeOptions.connectPacket.write = .ok b) ∧
    (∃ b, someoneElse.connectPacket.write = .ok b) ∧
    .wrote someoneElse.connectPacket 1 1 ∈ smolTrace true someoneElse 0 smolUnacked :=
  ⟨⟨rfl, rfl, rfl, rfl, rfl⟩, ⟨_, rfl⟩, ⟨_, rfl⟩, .head _⟩

end Mqrstt.Props
