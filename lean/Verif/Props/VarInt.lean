import Verif.Proof.VarInt
/-!
# C01, C02: variable byte integers
-/

namespace Mqrstt.Props
open Mqrstt Spec

/-- **C01.** Every number up to 268,435,455 is written, identically by both writers, as a complete
variable byte integer of one to four bytes with that value, as many bytes as the length function
says; the three readers return the number and consume exactly those bytes. Larger numbers are
refused by both writers. -/
theorem C01_varint_round_trip (n : Nat) :
    (n ≤ vbiMax → ∃ bs,
      VarInt.write n = .ok bs ∧ VarInt.asyncWrite n = .ok (bs, bs.length) ∧
      IsVbi bs ∧ vbiValue bs = n ∧ bs.length = VarInt.len n ∧ 1 ≤ bs.length ∧ bs.length ≤ 4 ∧
      ∀ rest, VarInt.read (bs ++ rest) = .ok ((n, bs.length), rest) ∧
        VarInt.asyncRead (bs ++ rest) = .ok ((n, bs.length), rest) ∧
        VarInt.remLen (bs ++ rest) = .ok (n, bs.length)) ∧
    (vbiMax < n → VarInt.write n = .error (.variableIntegerOverflow n) ∧
      VarInt.asyncWrite n = .error (.variableIntegerOverflow n)) := by
  constructor
  · intro h
    obtain ⟨init, last, e1, e2, h1, h2, h3, h4, h5⟩ := VarInt.write_spec n h
    obtain ⟨-, -, -, r1, r2, r3⟩ := VarInt.write_ok_iff n _ e1
    refine ⟨init ++ [last], e1, e2, ⟨init, last, rfl, h1, h2, h3⟩, h4, h5, ?_, ?_, ?_⟩
    · rw [h5]; exact VarInt.len_pos n
    · rw [h5]; exact VarInt.len_le n
    · intro rest; exact ⟨r1 rest, r2 rest, r3 rest⟩
  · exact VarInt.write_error n

example : (16384 : Nat) ≤ vbiMax ∧ VarInt.write 16384 = .ok [128, 128, 1] := ⟨by decide, rfl⟩
example : vbiMax < 268435456 ∧
    VarInt.write 268435456 = .error (.variableIntegerOverflow 268435456) := ⟨by decide, rfl⟩

/-- The value of at most four groups is at most 268,435,455. -/
theorem C02_value_bound (bs : Bytes) (h : bs.length ≤ 4) : vbiValue bs ≤ vbiMax := by
  match bs, h with
  | [], _ => simp [vbiValue]
  | [a], _ => simp only [vbiValue, vbiMax]; omega
  | [a, b], _ => simp only [vbiValue, vbiMax]; omega
  | [a, b, c], _ => simp only [vbiValue, vbiMax]; omega
  | [a, b, c, d], _ => simp only [vbiValue, vbiMax]; omega
  | _ :: _ :: _ :: _ :: _ :: _, h => simp at h

/-- **C02.** Every byte string falls in exactly one of three cases. (1) It starts with a complete
variable byte integer: all readers return its base-128 value (at most 268,435,455) and its length
(at most four), and consume exactly that. (2) Its first four bytes all carry the continuation bit:
all readers report a malformed packet. (3) It has fewer than four bytes, all with the continuation
bit: the streaming reader reports the end of the input and the frame reader asks for one more
byte; the reader used inside a packet body, where nothing can follow, reports a malformed
packet. -/
theorem C02_varint_decoding (b : Bytes) :
    (∃ bs rest, b = bs ++ rest ∧ IsVbi bs ∧ bs.length ≤ 4 ∧ vbiValue bs ≤ vbiMax ∧
      VarInt.read b = .ok ((vbiValue bs, bs.length), rest) ∧
      VarInt.asyncRead b = .ok ((vbiValue bs, bs.length), rest) ∧
      VarInt.remLen b = .ok (vbiValue bs, bs.length)) ∨
    (4 ≤ b.length ∧ IsOpen (b.take 4) ∧
      VarInt.read b = .error (.de .malformedPacket) ∧
      VarInt.asyncRead b = .error (.de .malformedPacket) ∧
      VarInt.remLen b = .error (.err (.de .malformedPacket))) ∨
    (b.length < 4 ∧ IsOpen b ∧
      VarInt.read b = .error (.de .malformedPacket) ∧
      VarInt.asyncRead b = .error .eof ∧
      VarInt.remLen b = .error (.insufficientBytes 1)) := by
  rcases VarInt.vbi_or_open 4 b with ⟨init, last, rest, rfl, h1, h2, h3⟩ | h
  · left
    have key := fun miss => VarInt.readLoop_vbi miss rest init last 4 0 0 h1 h2 h3
    simp only [Nat.mul_zero, Nat.pow_zero, Nat.mul_one, Nat.zero_add] at key
    have hl : (init ++ [last]).length = init.length + 1 := by simp
    refine ⟨init ++ [last], rest, by simp, ⟨init, last, rfl, h1, h2, h3⟩, by rw [hl]; omega,
      C02_value_bound _ (by rw [hl]; omega), ?_, ?_, ?_⟩
    · rw [hl]; exact key _
    · rw [hl]; exact key _
    · rw [hl, VarInt.remLen, VarInt.remLenLoop_eq, key]
  · right
    have key := fun miss => VarInt.readLoop_open miss b 4 0 0 h
    rcases Nat.lt_or_ge b.length 4 with hlt | hge
    · right
      have hn : ¬ 4 ≤ b.length := by omega
      simp only [hn, if_false] at key
      refine ⟨hlt, ?_, key _, key _, ?_⟩
      · intro x hx; exact h x (by rw [List.take_of_length_le (by omega)]; exact hx)
      · rw [VarInt.remLen, VarInt.remLenLoop_eq, key]
    · left
      simp only [hge, if_true] at key
      refine ⟨hge, h, key _, key _, ?_⟩
      rw [VarInt.remLen, VarInt.remLenLoop_eq, key]

example : VarInt.read [0x80, 0x80, 0x80, 0x80, 1] = .error (.de .malformedPacket) := rfl
example : VarInt.asyncRead [0x80, 0x80] = .error .eof := rfl
example : VarInt.asyncRead [0xff, 0xff, 0xff, 0x7f, 9] = .ok ((268435455, 4), [9]) := rfl

end Mqrstt.Props
