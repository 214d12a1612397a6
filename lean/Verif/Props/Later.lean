import Verif.Props.KeepAlive
import Verif.Proof.Later
/-!
# Only differences of time matter (C120)
-/

namespace Mqrstt.Props
open Mqrstt Mqrstt.Spec

/-- **C120.** tokio: the same history `d` later, from the creation of the network on, shows the same, `d` later. -/
theorem C120_tokio (d : Nat) (o : Options) (t : Nat) (ops : List TokioOp) :
    tokioTrace o (t + d) (ops.map (Later.tokio d)) = (tokioTrace o t ops).map (Later.obs d) :=
  congrArg Prod.snd (Mqrstt.Later.history Tokio.step (Mqrstt.Later.tk d) (Later.tokio d) (Later.obs d) (Mqrstt.Later.tk_step d) (Tokio.new o t) ops)

/-- **C120.** The same for smol. -/
theorem C120_smol (d : Nat) (checks : Bool) (o : Options) (t : Nat) (ops : List SmolOp) :
    smolTrace checks o (t + d) (ops.map (Later.smol d)) = (smolTrace checks o t ops).map (Later.obs d) :=
  congrArg Prod.snd (Mqrstt.Later.history Smol.step (Mqrstt.Later.sm d) (Later.smol d) (Later.obs d) (Mqrstt.Later.sm_step d) (Smol.new checks o t) ops)

/-- an hour later: connected, a ping after ten seconds, its answer, another ping -/
example : .wrote .pingReq (sec 10 + 1) (sec 10 + 1) ∈ tokioTrace netOptions 0 tokioPings ∧
    .wrote .pingReq (sec 10 + 1 + sec 3600) (sec 10 + 1 + sec 3600) ∈ tokioTrace netOptions (0 + sec 3600) (tokioPings.map (Later.tokio (sec 3600))) := by
  have e : tokioTrace netOptions 0 tokioPings = tokioTrace netOptions 0 tokioUp ++
      [.wrote .pingReq (sec 10 + 1) (sec 10 + 1), .read .pingResp, .delivered .pingResp,
        .wrote .pingReq (sec 20 + 1) (sec 20 + 1)] := rfl
  have h : .wrote .pingReq (sec 10 + 1) (sec 10 + 1) ∈ tokioTrace netOptions 0 tokioPings := by
    rw [e]
    exact List.mem_append_right _ (.head _)
  refine ⟨h, ?_⟩
  rw [C120_tokio]
  exact List.mem_map.mpr ⟨_, h, rfl⟩

/-- an hour later: a keep-alive timeout after twenty seconds of silence -/
example : .ended (.status .keepAliveTimeout) ∈
    smolTrace true netOptions (0 + sec 3600)
      (List.map (Later.smol (sec 3600)) (smolUp ++ [.turn .timer true (at' (sec 11)), .turn .timer true (at' (sec 21))])) := by
  have e : smolTrace true netOptions 0 (smolUp ++ [.turn .timer true (at' (sec 11)), .turn .timer true (at' (sec 21))]) =
      smolTrace true netOptions 0 smolUp ++ [.wrote .pingReq (sec 11) (sec 11),
        .wrote keepAliveDisconnect (sec 21) (sec 21), .ended (.status .keepAliveTimeout)] := rfl
  rw [C120_smol, e]
  exact List.mem_map.mpr ⟨.ended (.status .keepAliveTimeout), List.mem_append_right _ (.tail _ (.tail _ (.head _))), rfl⟩

end Mqrstt.Props
