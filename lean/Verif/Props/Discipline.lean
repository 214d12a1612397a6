import Verif.Proof.Discipline
import Verif.Props.Network
/-!
# The shape of a conversation (C56)
-/

namespace Mqrstt.Props
open Mqrstt Mqrstt.Spec _root_.Spec

/-- **C56.** Every history of either network follows the rules of `Conv.next`: CONNECT first and only in `connect`, then
nothing before the answer; after an accepting CONNACK only retransmissions until `connect` returns; then, only while `run`
executes, only packets a client may send; after a DISCONNECT in either direction nothing but the end of `run`; after that
nothing without a new `connect`. -/
theorem C56_conversation (tr : List Obs) (h : IsTrace tr) : WellBehaved tr := by
  obtain ⟨fl, o, t, v, h⟩ := h.vrun
  exact ⟨v.conv, h.conv⟩

/-- **C56.** In particular: a packet is written only on a connection while `run` executes, unless it is a CONNECT or a
retransmission in `connect`; a packet is read only on a connection while `run` executes, or right after a CONNECT. -/
theorem C56_only_on_a_connection (tr pre post : List Obs) (h : IsTrace tr) :
    (∀ p a b, tr = pre ++ .wrote p a b :: post →
      (isUp pre = true ∧ isRunning pre = true ∧ clientMaySend p = true) ∨
      (isRunning pre = false ∧ ((∃ c, p = .connect c) ∨ isResent p = true))) ∧
    (∀ p, tr = pre ++ .read p :: post →
      (isUp pre = true ∧ isRunning pre = true) ∨ ∃ c a b, [.wrote (.connect c) a b] <:+ pre) := by
  obtain ⟨fl, o, t, v, h⟩ := h.vrun
  refine ⟨?_, fun p e => h.readAt e⟩
  intro p a b e
  obtain ⟨⟨ph, up⟩, s2, ⟨h1, h2, h3⟩, hs, -⟩ := conv_split h.conv e
  rw [h1, h2]
  cases ph
  case idle => cases p <;> simp [Conv.next] at hs; exact .inr ⟨rfl, .inl ⟨_, rfl⟩⟩
  case resending => refine .inr ⟨rfl, .inr ?_⟩; simp [Conv.next] at hs; exact hs.1
  case running =>
    refine .inl ⟨h3 rfl, rfl, ?_⟩
    cases p <;> first | rfl | simp [Conv.next, clientMaySend] at hs
  all_goals simp [Conv.next] at hs

/-- a run on a first connection, its end, and a second connection -/
example : ∃ s, (Conv.mk .idle false).after (tokioTrace netOptions 0 (tokioUp ++ [.client (.call userDisconnect),
    .client (.submit 0), .turn .outgoing 0 true (at' 2),
    .connect ⟨true, plainConnAck, false, fun _ => true, true, at' 3⟩, .start])) = some s ∧ s.up = true :=
  ⟨_, rfl, rfl⟩

/-- the rules forbid something: a publish before CONNECT, a CONNECT in a run, a publish after a DISCONNECT -/
example : ¬ WellBehaved [.wrote (netPublished []) 0 0] ∧
    ¬ WellBehaved (tokioTrace netOptions 0 tokioUp ++ [.wrote netOptions.connectPacket 2 2]) ∧
    ¬ WellBehaved (tokioTrace netOptions 0 tokioUp ++ [.wrote userDisconnectPacket 2 2, .wrote (netPublished []) 2 2]) := by
  refine ⟨?_, ?_, ?_⟩ <;> rintro ⟨s, h⟩ <;> cases h

end Mqrstt.Props
