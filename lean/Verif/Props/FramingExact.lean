import Verif.Proof.Header
/-!
# C12: what the buffered reader does with any buffer
-/

namespace Mqrstt.Props
open Mqrstt Spec Witness

/-- **C12 (partial): the exceptions are exact.** For every buffer: it is left as it was with an error
exactly when its header cannot begin a packet; it is left as it was with a request for more bytes
exactly when there is one byte at most, or some bytes are missing to a frame; in all other cases it
starts with a frame, and that is what is removed. -/
theorem C12_exact_partial (b : Bytes) :
    ((∃ e, Packet.read b = (.error (.err e), b)) ↔ BadHeader b) ∧
    ((∃ n, Packet.read b = (.error (.insufficientBytes n), b)) ↔
      b.length < 2 ∨ ∃ t h, h ≠ [] ∧ IsFrame t (b ++ h)) ∧
    (¬ BadHeader b → ¬ (b.length < 2 ∨ ∃ t h, h ≠ [] ∧ IsFrame t (b ++ h)) →
      ∃ t f r, IsFrame t f ∧ ∃ rest, b = f ++ rest ∧ Packet.read b = (r, rest)) := by
  have tri := header_tri b
  -- the kinds exclude each other
  have hinc : (b.length < 2 ∨ ∃ t h, h ≠ [] ∧ IsFrame t (b ++ h)) → ∃ n, Packet.read b = (.error (.insufficientBytes n), b) := by
    rintro (h | ⟨t, h, hn, hf⟩)
    · exact short_asks h
    · obtain ⟨n, hr, -⟩ := C14_incomplete_frames.1 t b h hf hn
      exact ⟨n, hr⟩
  refine ⟨⟨?_, ?_⟩, ⟨?_, hinc⟩, ?_⟩
  · rintro ⟨e, he⟩
    rcases tri with ⟨h, -⟩ | ⟨-, n, hn⟩ | ⟨t, f, rest, ⟨first, len, body, rfl, -, -, -⟩, rfl, r, hr, -⟩
    · exact h
    · rw [hn] at he; cases he
    · rw [hr] at he
      have := congrArg (fun x => x.2.length) he
      simp only [List.length_append, List.length_cons] at this
      omega
  · intro hb
    rcases tri with ⟨-, h⟩ | ⟨h1, n, hn⟩ | ⟨t, f, rest, hf, e, -⟩
    · exact h
    · rcases h1 with h1 | ⟨t, h, -, hf⟩
      · obtain ⟨_, _, _, rfl, -⟩ := hb
        simp at h1; omega
      · exact absurd (List.append_nil _).symm (badHeader_no_frame (badHeader_append hb h) t _ [] hf)
    · exact absurd e (badHeader_no_frame hb t f rest hf)
  · rintro ⟨n, hn⟩
    rcases tri with ⟨-, e, he⟩ | ⟨h, -⟩ | ⟨t, f, rest, -, -, r, hr, hne⟩
    · rw [hn] at he; cases he
    · exact h
    · rw [hn] at hr; cases hr; exact absurd rfl (hne n)
  · intro h1 h2
    rcases tri with ⟨h, -⟩ | ⟨h, -⟩ | ⟨t, f, rest, hf, e, r, hr, -⟩
    · exact absurd h h1
    · exact absurd h h2
    · exact ⟨t, f, r, hf, rest, e, hr⟩

/-- an undefined first byte, a length that does not end, a PUBLISH of which a byte is missing -/
example : BadHeader [0x00, 0] ∧ BadHeader [0x30, 0x80, 0x81, 0xff, 0x80, 1] ∧
    ∃ h, h ≠ [] ∧ IsFrame .publish ([0x30, 4, 0, 1, 97] ++ h) := by
  refine ⟨⟨0, 0, [], rfl, .inl ?_⟩, ⟨0x30, 0x80, [0x81, 0xff, 0x80, 1], rfl, .inr ⟨by decide, by simp [more]⟩⟩, [0], by simp,
    0x30, [4], [0, 1, 97, 0], rfl, by constructor <;> simp [typeNumber, mandatedFlags],
    ⟨[], 4, rfl, by decide, by simp, by simp [more]⟩, rfl⟩
  rintro t ⟨h, -⟩
  cases t <;> simp [typeNumber] at h

end Mqrstt.Props
