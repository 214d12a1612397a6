import Verif.Proof.DisciplineDrop
import Verif.Props.KeepAliveDrop
import Verif.Props.Discipline
/-! # The shape of a conversation, also when futures are dropped (C56) -/

namespace Mqrstt.Props
open Mqrstt Mqrstt.Spec _root_.Spec

/-- **C56, tokio**, in every history in which the futures of `run` and `connect` may also be dropped anywhere: what is observed
follows the rules of a conversation. -/
theorem C56_dropped_tokio (o : Options) (t : Nat) (ops : List TokioWireOp) : WellBehavedDropping (tokioWireTrace o t ops) :=
  ⟨_, DisciplineDrop.tokio o t ops⟩

/-- **C56, smol**, also with dropped futures. -/
theorem C56_dropped_smol (checks : Bool) (o : Options) (t : Nat) (ops : List SmolWireOp) :
    WellBehavedDropping (smolWireTrace checks o t ops) :=
  ⟨_, DisciplineDrop.smol checks o t ops⟩

/-- **C56, tokio**, also with dropped futures: a packet is written only on a connection while `run` executes, unless it is a CONNECT
or a retransmission in `connect`. -/
theorem C56_dropped_only_on_a_connection_tokio (o : Options) (t : Nat) (ops : List TokioWireOp) (pre post : List Obs)
    (p : Packet) (a b : Nat) (e : tokioWireTrace o t ops = pre ++ .wrote p a b :: post) :
    (isUp pre = true ∧ isRunning pre = true ∧ clientMaySend p = true) ∨
      (isRunning pre = false ∧ ((∃ c, p = .connect c) ∨ isResent p = true)) :=
  DisciplineDrop.writes (C56_dropped_tokio o t ops) e

/-- **C56, smol**, also with dropped futures. -/
theorem C56_dropped_only_on_a_connection_smol (checks : Bool) (o : Options) (t : Nat) (ops : List SmolWireOp) (pre post : List Obs)
    (p : Packet) (a b : Nat) (e : smolWireTrace checks o t ops = pre ++ .wrote p a b :: post) :
    (isUp pre = true ∧ isRunning pre = true ∧ clientMaySend p = true) ∨
      (isRunning pre = false ∧ ((∃ c, p = .connect c) ∨ isResent p = true)) :=
  DisciplineDrop.writes (C56_dropped_smol checks o t ops) e

/-- a packet is written after a drop: the user's DISCONNECT, by the second `run` -/
example : tokioWireTrace resumeOptions 0 (tokioPingCut ++ ([.client (.call userDisconnect), .client (.submit 0),
      .turn .outgoing 0 true (at' (sec 11))] : List TokioOp).map .op) =
    (tokioWireTrace resumeOptions 0 tokioPingCut ++ [.user (.called userDisconnect none userDisconnectPacket),
      .user (.submitted userDisconnectPacket)]) ++ .wrote userDisconnectPacket (sec 11) (sec 11) :: [.ended (.status .outgoingDisconnect)] := rfl

/-- a dropped `run`, then `run` again and a dropped `connect`: the stricter rules of histories without drops are not followed -/
example : let tr := tokioWireTrace resumeOptions 0 (tokioUp.map .op ++ [.drop .timer (.writing 1) 0 (at' (sec 10 + 1)),
      .dropConnect ⟨true, plainConnAck, false, fun _ => true, true, at' (sec 11)⟩ .handling, .op .start])
    (∃ s, (Conv.mk .idle false).afterDropping tr = some s ∧ s.up = true ∧ s.phase = .running) ∧ ¬ WellBehaved tr :=
  ⟨⟨_, rfl, rfl, rfl⟩, by rintro ⟨s, h⟩; cases h⟩

/-- the rules forbid something: a publish before CONNECT, a packet written after a drop, a start after a dropped `connect` -/
example : ¬ WellBehavedDropping [.wrote (netPublished []) 0 0] ∧
    ¬ WellBehavedDropping (tokioTrace netOptions 0 tokioUp ++ [.cancelled, .wrote (netPublished []) 2 2]) ∧
    ¬ WellBehavedDropping [.wrote netOptions.connectPacket 0 0, .cancelled, .started] := by
  refine ⟨?_, ?_, ?_⟩ <;> rintro ⟨s, h⟩ <;> cases h

end Mqrstt.Props
