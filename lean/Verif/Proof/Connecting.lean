import Verif.Proof.KeepAlive
/-! # Lemmas about writing several packets -/

namespace Mqrstt

theorem Tokio.writePackets_no_read (ok : Nat → Bool) (T : Times) (n : Nat) (ps : List Packet) (q : Packet) :
    .read q ∉ writePackets ok T n ps := by
  obtain ⟨ws, -, h⟩ := writePackets_wrotes ok T ps n
  rw [h]
  simp [wrotes]

theorem Tokio.writePackets_all (ok : Nat → Bool) (T : Times) (n : Nat) (ps : List Packet) (hok : ∀ k, ok k = true)
    (hw : ∀ p ∈ ps, ∃ bs, p.asyncWrite = .ok bs) : writePackets ok T n ps = ps.map fun p => .wrote p T.fire T.first := by
  induction ps generalizing n with
  | nil => rfl
  | cons p ps ih =>
    obtain ⟨bs, hbs⟩ := hw p (by simp)
    have : writePacket p (ok n) = .ok () := by simp [writePacket, hbs, hok]
    simp only [writePackets, this, List.map_cons]
    rw [ih (n + 1) fun q hq => hw q (by simp [hq])]

theorem Smol.writeAll_false (ps : List Packet) : ∃ e, writeAll ps false = .error e := by
  induction ps with
  | nil => exact ⟨_, rfl⟩
  | cons p ps ih =>
    simp only [writeAll]
    split
    · exact ⟨_, rfl⟩
    · exact ih

end Mqrstt
