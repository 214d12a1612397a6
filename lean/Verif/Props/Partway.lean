import Verif.Proof.Partway
import Verif.Props.Interrupt
/-!
# A dropped call of `run` has done the first part of a turn, and nothing else (C107)
-/

namespace Mqrstt.Props
open Mqrstt Mqrstt.Spec _root_.Spec

/-- **C107, tokio.** The future of `run` can be dropped in the middle of its work exactly where a turn of its loop waits, for
the user's handler or for the connection to take bytes, and what it leaves behind is what the turn has done up to there: what
has been read is processed, what is to be sent has left the queue, an initial part of the packet at hand has been written. -/
theorem C107_tokio (o : Options) (t : Nat) (ops : List TokioWireOp) (b : TokioBranch) (d : DropAt) (lost : Nat) (T : Times)
    (s' : TokioWire) (obs : List Obs) :
    (tokioWire o t ops).step (.drop b d lost T) = some (s', obs) ↔
      ∃ n seen more, TokioPartway (tokioWire o t ops) b d lost T n seen more s' obs :=
  ⟨TokioWire.drop_partway, fun ⟨_, _, _, h⟩ => tokioPartway_drop h⟩

/-- a message of QoS 2 has arrived, and `run` is dropped before the second byte of the PUBREC -/
example : let ops := tokioReady .atMostOnce ++ [.op (.arrive [0x34, 0x06, 0x00, 0x01, 0x74, 0x00, 0x07, 0x00])]
    ∃ s' obs, (tokioWire resumeOptions 0 ops).step (.drop .read (.writing 1) 0 (at' 2)) = some (s', obs) ∧
      s'.wire = (tokioWire resumeOptions 0 ops).wire ++ [0x50] ∧ (readIn obs).length = 1 ∧ (deliveredIn obs).length = 1 ∧
      s'.net.sys.queue.length = 1 := ⟨_, _, rfl, rfl, rfl, rfl, rfl⟩

/-- **C107, smol.** The same for smol, which writes from a buffer: all that the turn writes is in the buffer, behind what an
earlier dropped call has left there, and an initial part of the buffer has been written. -/
theorem C107_smol (checks : Bool) (o : Options) (t : Nat) (ops : List SmolWireOp) (b : SmolBranch) (d : DropAt) (T : Times)
    (s' : SmolWire) (obs : List Obs) :
    (smolWire checks o t ops).step (.drop b d T) = some (s', obs) ↔
      ∃ n seen more, SmolPartway (smolWire checks o t ops) b d T n seen more s' obs :=
  ⟨SmolWire.drop_partway (smol_wire_good checks o t ops), fun ⟨_, _, _, h⟩ => smolPartway_drop (smol_wire_good checks o t ops) h⟩

/-- a message is dropped after eight of its nine bytes; then a PINGRESP arrives, the user's handler has seen it, and `run` is
dropped when it has written one byte of what is in the buffer: the first byte of the message, once more -/
example : let ops := smolReady .atMostOnce ++ [.drop .outgoing (.writing 8) (at' 2), .op .start]
    ∃ s' obs, (smolWire true resumeOptions 0 ops).step (.drop (.read [208, 0]) (.writing 1) (at' 3)) = some (s', obs) ∧
      s'.wire = (smolWire true resumeOptions 0 ops).wire ++ [0x30] ∧ s'.buffer = [0x30, 7, 0, 1, 116, 0, 1, 2, 3] ∧
      (deliveredIn obs).length = 1 := ⟨_, _, rfl, rfl, rfl, rfl⟩

/-- **C107, what comes after it.** Whatever was dropped before, a step that is not dropped writes its packets behind what is
on the connection: tokio right there; smol behind everything that is still in its buffer, and it empties the buffer even if
the turn, having handled a packet, has nothing to write. Only a successful `connect` begins anew. -/
theorem C107_goes_on (o : Options) (t : Nat) :
    (∀ (ops : List TokioWireOp) op s' obs, (tokioWire o t ops).step (.op op) = some (s', obs) →
      ((∃ i, op = .connect i) → hasConnected obs = true → s'.wire = (writtenIn obs).flatMap tokioBytes) ∧
      ((∃ i, op = .connect i) → hasConnected obs = false → s'.wire = (tokioWire o t ops).wire) ∧
      ((∀ i, op ≠ .connect i) → s'.wire = (tokioWire o t ops).wire ++ (writtenIn obs).flatMap tokioBytes)) ∧
    (∀ (checks : Bool) (ops : List SmolWireOp) op s' obs, (smolWire checks o t ops).step (.op op) = some (s', obs) →
      ((∃ i, op = .connect i) → hasConnected obs = true → s'.wire = (writtenIn obs).flatMap smolBytes ∧ s'.buffer = []) ∧
      ((∃ i, op = .connect i) → hasConnected obs = false →
        s'.wire = (smolWire checks o t ops).wire ∧ s'.buffer = (smolWire checks o t ops).buffer) ∧
      ((∀ i, op ≠ .connect i) → SmolWrites obs →
        s'.wire = (smolWire checks o t ops).wire ++ (smolWire checks o t ops).buffer ++ (writtenIn obs).flatMap smolBytes ∧
        s'.buffer = []) ∧
      ((∀ i, op ≠ .connect i) → ¬ SmolWrites obs →
        s'.wire = (smolWire checks o t ops).wire ∧ s'.buffer = (smolWire checks o t ops).buffer)) := by
  constructor
  · intro ops op s' obs h
    simp only [TokioWire.step] at h
    split at h
    · cases h
      cases op with
      | connect i =>
        simp only [TokioWire.advance, connectedIn_eq, sent_eq]
        exact ⟨fun _ hc => if_pos hc, fun _ hc => if_neg (by rw [hc]; simp), fun h => absurd rfl (h i)⟩
      | _ => exact ⟨fun ⟨i, h⟩ => (by cases h), fun ⟨i, h⟩ => (by cases h), fun _ => rfl⟩
    · cases h
  · intro checks ops op s' obs h
    simp only [SmolWire.step] at h
    split at h
    · cases h
      cases op with
      | connect i =>
        simp only [SmolWire.advance, sent_eq]
        refine ⟨fun _ hc => ?_, fun _ hc => ?_, fun h => absurd rfl (h i), fun h => absurd rfl (h i)⟩ <;> rw [← connectedIn_eq] at hc
        · rw [if_pos hc]; exact ⟨rfl, rfl⟩
        · rw [if_neg (by rw [hc]; simp)]; exact ⟨rfl, rfl⟩
      | _ =>
        refine ⟨fun ⟨i, h⟩ => (by cases h), fun ⟨i, h⟩ => (by cases h), fun _ hw => ?_, fun _ hw => ?_⟩ <;>
          simp only [SmolWire.advance, sent_eq]
        · rw [if_pos ((writes_iff _).2 hw)]
          exact ⟨by simp, rfl⟩
        · rw [if_neg (fun h => hw ((writes_iff _).1 h))]
          exact ⟨rfl, rfl⟩
    · cases h

/-- a message is dropped after eight of its nine bytes and a PINGRESP arrives: all nine bytes are written -/
example : let ops := smolReady .atMostOnce ++ [.drop .outgoing (.writing 8) (at' 2), .op .start]
    ∃ s' obs, (smolWire true resumeOptions 0 ops).step (.op (.turn (.read [208, 0]) true (at' 3))) = some (s', obs) ∧
      SmolWrites obs ∧ writtenIn obs = [] ∧ s'.buffer = [] ∧
      s'.wire = (smolWire true resumeOptions 0 ops).wire ++ [0x30, 7, 0, 1, 116, 0, 1, 2, 3] :=
  ⟨_, _, rfl, (writes_iff _).1 rfl, rfl, rfl, rfl⟩

end Mqrstt.Props
