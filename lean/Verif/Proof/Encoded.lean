import Verif.Proof.DeadEnd
/-! # Only packets with an encoding are written (C116) -/

namespace Mqrstt
open Mqrstt.Spec _root_.Spec Mqrstt.Props

theorem Tokio.writePacket_encoded {p : Packet} {io : Bool} (h : Tokio.writePacket p io = .ok ()) : ∃ e, p.asyncWrite = .ok e := by
  unfold Tokio.writePacket at h
  split at h
  · split at h <;> cases h
  · exact ⟨_, by assumption⟩

theorem Smol.writePacket_encoded {p : Packet} {io : Bool} (h : Smol.writePacket p io = .ok ()) : ∃ e, p.write = .ok e := by
  unfold Smol.writePacket at h
  split at h
  · cases h
  · exact ⟨_, by assumption⟩

theorem Smol.writeAll_encoded {ps : List Packet} {io : Bool} (h : Smol.writeAll ps io = .ok ()) : ∀ p ∈ ps, ∃ e, p.write = .ok e := by
  induction ps with
  | nil => simp
  | cons p ps ih =>
    unfold Smol.writeAll at h
    split at h
    · cases h
    · rename_i bs hb
      intro q hq
      rcases List.mem_cons.1 hq with rfl | hq
      · exact ⟨_, hb⟩
      · exact ih h q hq

/-- every packet written has an encoding -/
def Encoded {α : Type} (w : Packet → Except SerErr α) (obs : List Obs) : Prop := ∀ p a b, .wrote p a b ∈ obs → ∃ e, w p = .ok e

theorem Encoded.append {α : Type} {w : Packet → Except SerErr α} {a b : List Obs} (ha : Encoded w a) (hb : Encoded w b) :
    Encoded w (a ++ b) := by
  intro p x y h
  rcases List.mem_append.1 h with h | h
  · exact ha p x y h
  · exact hb p x y h

theorem Tokio.writePackets_encoded (ok : Nat → Bool) (T : Times) (i : Nat) (ps : List Packet) :
    Encoded Packet.asyncWrite (Tokio.writePackets ok T i ps) := by
  induction ps generalizing i with
  | nil => intro p a b h; cases h
  | cons q ps ih =>
    unfold Tokio.writePackets
    split
    · rename_i hw
      intro p a b h
      rcases List.mem_cons.1 h with h | h
      · cases h; exact Tokio.writePacket_encoded hw
      · exact ih _ p a b h
    · exact ih _

theorem Tokio.step_encoded {s s' : Tokio} {op : TokioOp} {obs : List Obs} (h : s.step op = some (s', obs)) :
    Encoded Packet.asyncWrite obs := by
  cases op with
  | client op =>
    simp only [Tokio.step] at h
    repeat' split at h
    all_goals first | (cases h; done) | (cases h; intro p a b hm; simp at hm)
  | dropNetwork =>
    simp only [Tokio.step] at h
    repeat' split at h
    all_goals first | (cases h; done) | (cases h; intro p a b hm; simp at hm)
  | start =>
    simp only [Tokio.step] at h
    repeat' split at h
    all_goals first | (cases h; done) | (cases h; intro p a b hm; simp at hm)
  | arrive bs =>
    simp only [Tokio.step] at h
    repeat' split at h
    all_goals first | (cases h; done) | (cases h; intro p a b hm; simp at hm)
  | close =>
    simp only [Tokio.step] at h
    repeat' split at h
    all_goals first | (cases h; done) | (cases h; intro p a b hm; simp at hm)
  | cancel n =>
    simp only [Tokio.step] at h
    repeat' split at h
    all_goals first | (cases h; done) | (cases h; intro p a b hm; simp at hm)
  | connect i =>
    simp only [Tokio.step, Tokio.connect, Tokio.established] at h
    repeat' split at h
    all_goals first
      | (cases h; done)
      | (cases h; intro p a b hm; simp at hm; done)
      | (cases h; intro p a b hm; simp at hm; obtain ⟨rfl, -⟩ := hm; exact Tokio.writePacket_encoded (by assumption); done)
      | (cases h; intro p a b hm; simp at hm; rcases hm with ⟨rfl, -⟩ | hm
         · exact Tokio.writePacket_encoded (by assumption)
         · exact Tokio.writePackets_encoded _ _ _ _ p a b hm)
  | turn br lost io T =>
    simp only [Tokio.step, Tokio.turn, Tokio.onRead, Tokio.onPacket, Tokio.onOutgoing, Tokio.onTimer, Tokio.finish] at h
    repeat' split at h
    all_goals first
      | (cases h; done)
      | (cases h; intro p a b hm; simp at hm; done)
      | (cases h; intro p a b hm; simp at hm; obtain ⟨rfl, -⟩ := hm; exact Tokio.writePacket_encoded (by assumption))

theorem Smol.step_encoded {s s' : Smol} {op : SmolOp} {obs : List Obs} (h : s.step op = some (s', obs)) :
    Encoded Packet.write obs := by
  cases op with
  | client op =>
    simp only [Smol.step] at h
    repeat' split at h
    all_goals first | (cases h; done) | (cases h; intro p a b hm; simp at hm)
  | dropNetwork =>
    simp only [Smol.step] at h
    repeat' split at h
    all_goals first | (cases h; done) | (cases h; intro p a b hm; simp at hm)
  | start =>
    simp only [Smol.step] at h
    repeat' split at h
    all_goals first | (cases h; done) | (cases h; intro p a b hm; simp at hm)
  | cancel =>
    simp only [Smol.step] at h
    repeat' split at h
    all_goals first | (cases h; done) | (cases h; intro p a b hm; simp at hm)
  | connect i =>
    simp only [Smol.step, Smol.connect, Smol.established] at h
    repeat' split at h
    all_goals first
      | (cases h; done)
      | (cases h; intro p a b hm; simp at hm; done)
      | (cases h; intro p a b hm; simp at hm; obtain ⟨rfl, -⟩ := hm; exact Smol.writePacket_encoded (by assumption); done)
      | (cases h; intro p a b hm; simp at hm; rcases hm with ⟨rfl, -⟩ | ⟨q, hm, rfl, -⟩
         · exact Smol.writePacket_encoded (by assumption)
         · exact Smol.writeAll_encoded (by assumption) _ hm)
  | turn br io T =>
    simp only [Smol.step, Smol.turn, Smol.onRead, Smol.onPacket, Smol.onOutgoing, Smol.onTimer, Smol.finish, Smol.flushOutgoing] at h
    repeat' split at h
    all_goals first
      | (cases h; done)
      | (cases h; intro p a b hm; simp at hm; done)
      | (cases h; intro p a b hm; simp at hm; obtain ⟨rfl, -⟩ := hm; exact Smol.writePacket_encoded (by assumption); done)
      | (cases h; intro p a b hm; simp at hm; obtain ⟨q, hm, rfl, -⟩ := hm
         exact Smol.writeAll_encoded (by assumption) _ hm)
      | (cases h; intro p a b hm; simp at hm; rcases hm with ⟨q, hm, rfl, -⟩ | ⟨q, rfl, rfl, -⟩
         · exact Smol.writeAll_encoded (by assumption) _ (by simp [hm])
         · exact Smol.writeAll_encoded (by assumption) _ (by simp))

theorem tokio_encoded (o : Options) (t : Nat) (ops : List TokioOp) : Encoded Packet.asyncWrite (tokioTrace o t ops) :=
  history_induct Tokio.step (fun _ tr => Encoded Packet.asyncWrite tr) (fun _ _ _ h => by cases h)
    (fun _ _ _ _ _ h hs => h.append (Tokio.step_encoded hs)) ops

theorem smol_encoded (k : Bool) (o : Options) (t : Nat) (ops : List SmolOp) : Encoded Packet.write (smolTrace k o t ops) :=
  history_induct Smol.step (fun _ tr => Encoded Packet.write tr) (fun _ _ _ h => by cases h)
    (fun _ _ _ _ _ h hs => h.append (Smol.step_encoded hs)) ops

end Mqrstt
