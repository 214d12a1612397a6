import Verif.Props.Later
import Verif.Props.Dropped
import Verif.Proof.LaterDrop
/-!
# Only differences of time matter, also where futures are dropped (C120)
-/

namespace Mqrstt.Props
open Mqrstt Mqrstt.Spec

/-- **C120.** tokio, where the futures of `run` and `connect` may be dropped anywhere: the same history `d` later shows the same,
`d` later, and puts the same bytes on the connection. -/
theorem C120_tokio_dropped (d : Nat) (o : Options) (t : Nat) (ops : List TokioWireOp) :
    tokioWireTrace o (t + d) (ops.map (Later.tokioWire d)) = (tokioWireTrace o t ops).map (Later.obs d) ∧
      ((TokioWire.new o (t + d)).runOps (ops.map (Later.tokioWire d))).1.wire = ((TokioWire.new o t).runOps ops).1.wire := by
  have := Mqrstt.Later.history TokioWire.step (Mqrstt.Later.tw d) (Later.tokioWire d) (Later.obs d) (Mqrstt.Later.tw_step d)
    (TokioWire.new o t) ops
  exact ⟨congrArg Prod.snd this, congrArg (fun x => x.1.wire) this⟩

/-- **C120.** The same for smol. -/
theorem C120_smol_dropped (d : Nat) (checks : Bool) (o : Options) (t : Nat) (ops : List SmolWireOp) :
    smolWireTrace checks o (t + d) (ops.map (Later.smolWire d)) = (smolWireTrace checks o t ops).map (Later.obs d) ∧
      ((SmolWire.new checks o (t + d)).runOps (ops.map (Later.smolWire d))).1.wire = ((SmolWire.new checks o t).runOps ops).1.wire := by
  have := Mqrstt.Later.history SmolWire.step (Mqrstt.Later.sw d) (Later.smolWire d) (Later.obs d) (Mqrstt.Later.sw_step d)
    (SmolWire.new checks o t) ops
  exact ⟨congrArg Prod.snd this, congrArg (fun x => x.1.wire) this⟩

/-- an hour later: `run` dropped while it writes, and called again -/
example : .cancelled ∈ tokioWireTrace resumeOptions (0 + sec 3600)
    (List.map (Later.tokioWire (sec 3600)) (tokioReady .atMostOnce ++ [.drop .outgoing (.writing 7) 0 (at' 2)] ++ tokioBye)) := by
  obtain ⟨a, b, c, d, e, f, g, r, h⟩ : ∃ a b c d e f g r, tokioWireTrace resumeOptions 0
    (tokioReady .atMostOnce ++ [.drop .outgoing (.writing 7) 0 (at' 2)] ++ tokioBye) = [a, b, c, d, e, f, g, .cancelled] ++ r :=
    ⟨_, _, _, _, _, _, _, _, rfl⟩
  rw [(C120_tokio_dropped _ _ _ _).1, h]
  exact List.mem_map.mpr ⟨.cancelled, by simp, rfl⟩

example : .cancelled ∈ smolWireTrace true resumeOptions (0 + sec 3600)
    (List.map (Later.smolWire (sec 3600)) (smolReady .atMostOnce ++ [.drop .outgoing (.writing 7) (at' 2)] ++ smolBye)) := by
  obtain ⟨a, b, c, d, e, f, g, r, h⟩ : ∃ a b c d e f g r, smolWireTrace true resumeOptions 0
    (smolReady .atMostOnce ++ [.drop .outgoing (.writing 7) (at' 2)] ++ smolBye) = [a, b, c, d, e, f, g, .cancelled] ++ r :=
    ⟨_, _, _, _, _, _, _, _, rfl⟩
  rw [(C120_smol_dropped _ _ _ _ _).1, h]
  exact List.mem_map.mpr ⟨.cancelled, by simp, rfl⟩

end Mqrstt.Props
