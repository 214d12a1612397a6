import Verif.Proof.KeepAliveDrop
import Verif.Props.KeepAlive
import Verif.Props.DeadEndDrop
/-! # Keep-alive, also after futures have been dropped (C40, C43) -/

namespace Mqrstt.Props
open Mqrstt Mqrstt.Spec _root_.Spec

/-- **C40, tokio**, in every history in which the futures of `run` and `connect` may also be dropped anywhere: a PINGREQ is written
only during `run`, with keep-alive on, an interval that is not zero, no unanswered PINGREQ on this run, and not before the
interval has passed since the last activity. -/
theorem C40_dropped_tokio (o : Options) (t : Nat) (ops : List TokioWireOp) (pre post : List Obs) (a b : Nat)
    (e : tokioWireTrace o t ops = pre ++ .wrote .pingReq a b :: post) :
    isRunning pre = true ∧ (ka o.keepAlive pre).on = true ∧ (ka o.keepAlive pre).interval ≠ 0 ∧ unanswered pre = false ∧
      lastActivity pre + (ka o.keepAlive pre).interval ≤ a :=
  (KeepAliveDrop.tokio o t ops).2 pre post a b e

/-- **C40, smol**, also with dropped futures. -/
theorem C40_dropped_smol (checks : Bool) (o : Options) (t : Nat) (ops : List SmolWireOp) (pre post : List Obs) (a b : Nat)
    (e : smolWireTrace checks o t ops = pre ++ .wrote .pingReq a b :: post) :
    isRunning pre = true ∧ (ka o.keepAlive pre).on = true ∧ (ka o.keepAlive pre).interval ≠ 0 ∧ unanswered pre = false ∧
      lastActivity pre + (ka o.keepAlive pre).interval ≤ a :=
  (KeepAliveDrop.smol checks o t ops).2 pre post a b e

/-- **C41, tokio**, also with dropped futures: a keep-alive timeout is reported only if it is justified. (For smol this is false
already when `run` is dropped between two turns: `C41_timeout_violated`.) -/
theorem C41_dropped_tokio (o : Options) (t : Nat) (ops : List TokioWireOp) (pre post : List Obs)
    (e : tokioWireTrace o t ops = pre ++ .ended (.status .keepAliveTimeout) :: post) : TimeoutJustified o.keepAlive pre :=
  KeepAliveDrop.tokio_timeouts o t ops pre post e

/-- **C43, tokio**: what is in force is what `ka` computes from the answers to CONNECT, also from an answer after which the future
of `connect` was dropped. -/
theorem C43_interval_in_force_dropped_tokio (o : Options) (t : Nat) (ops : List TokioWireOp) :
    (tokioWire o t ops).net.options.keepAlive = (ka o.keepAlive (tokioWireTrace o t ops)).interval ∧
    (tokioWire o t ops).net.perform = (ka o.keepAlive (tokioWireTrace o t ops)).on :=
  ⟨congrArg Ka.interval (KeepAliveDrop.tokio o t ops).1.ka, congrArg Ka.on (KeepAliveDrop.tokio o t ops).1.ka⟩

/-- **C43, smol**, also with dropped futures. -/
theorem C43_interval_in_force_dropped_smol (checks : Bool) (o : Options) (t : Nat) (ops : List SmolWireOp) :
    (smolWire checks o t ops).net.keepAlive = (ka o.keepAlive (smolWireTrace checks o t ops)).interval ∧
    (smolWire checks o t ops).net.perform = (ka o.keepAlive (smolWireTrace checks o t ops)).on :=
  ⟨congrArg Ka.interval (KeepAliveDrop.smol checks o t ops).1.ka, congrArg Ka.on (KeepAliveDrop.smol checks o t ops).1.ka⟩

/-- `run` is dropped in the middle of a PINGREQ and called again: the PINGREQ is due at once, and written -/
def tokioPingCut : List TokioWireOp :=
  tokioUp.map .op ++ [.drop .timer (.writing 1) 0 (at' (sec 10 + 1)), .op .start, .op (.turn .timer 0 true (at' (sec 10 + 2)))]
def smolPingCut : List SmolWireOp :=
  smolUp.map .op ++ [.drop .timer (.writing 1) (at' (sec 10 + 1)), .op .start, .op (.turn .timer true (at' (sec 10 + 2)))]

example : tokioWireTrace resumeOptions 0 tokioPingCut = tokioTrace resumeOptions 0 tokioUp ++
    [.cancelled, .started, .wrote .pingReq (sec 10 + 2) (sec 10 + 2)] := rfl

example : smolWireTrace true resumeOptions 0 smolPingCut = smolTrace true resumeOptions 0 smolUp ++
    [.cancelled, .started, .wrote .pingReq (sec 10 + 2) (sec 10 + 2)] := rfl

/-- a timeout after a dropped run -/
example : tokioWireTrace resumeOptions 0 (tokioPingCut ++ [.op (.turn .timer 0 true (at' (sec 21)))]) =
    tokioWireTrace resumeOptions 0 tokioPingCut ++ [.wrote keepAliveDisconnect (sec 21) (sec 21), .ended (.status .keepAliveTimeout)] := rfl

end Mqrstt.Props
