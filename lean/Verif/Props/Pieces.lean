import Verif.Proof.Pieces
import Verif.Props.Panic
/-!
# In which pieces an answer makes smol's `connect` panic (C117)
-/

namespace Mqrstt.Props
open Mqrstt Mqrstt.Spec _root_.Spec

/-- **C117, smol**, `connect`: whatever happened before, it panics exactly if it has written its CONNECT and the pieces in which the
answer arrives are as in `AnswerPanics`. Missing: no answer must make it panic. -/
theorem C117_smol_connect_partial (c : Bool) (o : Options) (t : Nat) (ops : List SmolOp) (op : SmolOp) (s' : Smol) (obs : List Obs)
    (h : (smol c o t ops).step op = some (s', obs)) :
    .connectPanicked ∈ obs ↔
      ∃ i, op = .connect i ∧ (∃ p a b, .wrote p a b ∈ obs) ∧ AnswerPanics c i.chunks := by
  have hc := smol_checks c o t ops
  constructor
  · intro hp
    obtain ⟨hv, hg⟩ := Smol.vrun_good c o t ops
    obtain ⟨-, _, a, b, rfl⟩ := (Smol.step_vstep hg h).1.connectPanics hv.tame hp
    obtain ⟨i, rfl, -⟩ := Smol.connect_crashed h
    refine ⟨i, rfl, ⟨_, _, _, .head _⟩, ?_⟩
    rw [← Pieces.read_panics, ← hc]
    exact Pieces.connect_panics h
  · rintro ⟨i, rfl, ⟨p, a, b, hw⟩, hp⟩
    rw [← Pieces.read_panics, ← hc] at hp
    exact Pieces.connect_panicked h hw hp

/-- a CONNACK in pieces of 3, 1 and 1 bytes; in pieces of 2 and 3 bytes it is read -/
example : AnswerPanics false [[0x20, 3, 0], [0], [0]] ∧
    (∃ s', (smol false resumeOptions 0 []).step (.connect ⟨true, [[0x20, 3, 0], [0], [0]], true, at' 1⟩) =
      some (s', [.wrote resumeOptions.connectPacket 1 1, .connectPanicked])) ∧
    ¬ AnswerPanics true [[0x20, 3], [0, 0, 0]] ∧
    (∃ s', (smol true resumeOptions 0 []).step (.connect ⟨true, [[0x20, 3], [0, 0, 0]], true, at' 1⟩) =
      some (s', [.wrote resumeOptions.connectPacket 1 1, .read (.connAck ⟨false, .success, .empty⟩),
        .delivered (.connAck ⟨false, .success, .empty⟩), .connected ⟨false, .success, .empty⟩ 1])) := by
  refine ⟨⟨[[0x20, 3, 0]], [[0], [0]], 2, 3, rfl, by simp,
    ⟨.connAck, 0x20, [3], [0], rfl, (firstByte_iff _ _).1 ⟨0, rfl⟩, ⟨[], _, rfl, by decide, by simp, by simp [more]⟩, rfl, rfl⟩,
    by decide, .inr (.inr ⟨by decide, [[0]], [[0]], rfl, ⟨by simp, by simp, by decide, .inl rfl⟩, .inl (by decide)⟩)⟩,
    ⟨_, rfl⟩, ?_, ⟨_, rfl⟩⟩
  obtain ⟨s', h⟩ : ∃ s', (smol true resumeOptions 0 []).step (.connect ⟨true, [[0x20, 3], [0, 0, 0]], true, at' 1⟩) =
      some (s', [.wrote resumeOptions.connectPacket 1 1, .read (.connAck ⟨false, .success, .empty⟩),
        .delivered (.connAck ⟨false, .success, .empty⟩), .connected ⟨false, .success, .empty⟩ 1]) := ⟨_, rfl⟩
  intro hp
  have := (C117_smol_connect_partial _ _ _ _ _ _ _ h).2 ⟨_, rfl, ⟨_, _, _, .head _⟩, hp⟩
  simp at this

end Mqrstt.Props
