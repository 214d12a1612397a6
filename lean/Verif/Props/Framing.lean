import Verif.Proof.Framing
import Verif.Proof.Sizes
import Verif.Proof.Witness
/-!
# C12, C14: frames in a buffer
-/

namespace Mqrstt.Props
open Mqrstt Spec Witness

/-- **C12 (partial).** When a buffer starts with the frame of a packet, followed by anything, the
buffered reader's answer is the one it gives for the frame alone, it is a packet or a decoding error,
and exactly the frame has been removed. Conversely, whenever the reader returns a packet, what it
removed is one frame of that packet's type. Missing: a first byte that MQTT does not define, which is an
error that leaves the buffer as it was, see `C12_frame_isolation_violated`. -/
theorem C12_frame_isolation_partial :
    (∀ t f, IsFrame t f → ∃ r : Except Fail Packet, ∀ rest,
      Packet.read (f ++ rest) = (r.mapError .err, rest)) ∧
    (∀ b p rest, Packet.read b = (.ok p, rest) → ∃ f, IsFrame p.type f ∧ b = f ++ rest) ∧
    (∀ b r rest, Packet.read b = (r, rest) → rest ≠ b → ∃ t f, IsFrame t f ∧ b = f ++ rest) := by
  have key : ∀ b r rest, Packet.read b = (r, rest) → (rest ≠ b ∨ ∃ p, r = .ok p) →
      ∃ t f, IsFrame t f ∧ b = f ++ rest ∧ ∀ p, r = .ok p → p.type = t := by
    intro b r rest h hne
    rcases Packet.read_cases b with ⟨first, len, body, rest', t, flags, rfl, ht, hv, hb⟩ | ⟨n, hn⟩ | ⟨e, he⟩
    · rw [Packet.read_isVbi ht hv hb] at h
      refine ⟨t, first :: (len ++ body), ⟨first, len, body, rfl,
        ((C06_first_byte_accepted first).1 t).1 ⟨_, ht⟩, hv, hb⟩, ?_, ?_⟩
      · cases h; simp
      · rintro p rfl
        simp only [Prod.mk.injEq] at h
        rw [Packet.readPacket] at h
        cases hr : Packet.bodyRead ⟨t, flags, body.length⟩ body with
        | error e => rw [hr] at h; cases h.1
        | ok q =>
          rw [hr] at h
          have := h.1
          simp only [Except.ok.injEq] at this
          subst this
          exact Packet.bodyRead_type hr
    · rw [hn] at h; cases h
      rcases hne with h | ⟨p, hp⟩
      · exact absurd rfl h
      · cases hp
    · rw [he] at h; cases h
      rcases hne with h | ⟨p, hp⟩
      · exact absurd rfl h
      · cases hp
  refine ⟨?_, ?_, ?_⟩
  · rintro t f ⟨first, len, body, rfl, hf, hv, hb⟩
    obtain ⟨flags, ht⟩ := ((C06_first_byte_accepted first).1 t).2 hf
    refine ⟨Packet.readPacket ⟨t, flags, body.length⟩ body, fun rest => ?_⟩
    rw [List.cons_append, List.append_assoc, Packet.read_isVbi ht hv hb]
    cases Packet.readPacket ⟨t, flags, body.length⟩ body <;> rfl
  · intro b p rest h
    obtain ⟨t, f, h1, h2, h3⟩ := key b _ rest h (.inr ⟨p, rfl⟩)
    exact ⟨f, by rw [h3 p rfl]; exact h1, h2⟩
  · intro b r rest h hne
    obtain ⟨t, f, h1, h2, -⟩ := key b _ rest h (.inl hne)
    exact ⟨t, f, h1, h2⟩

/-- a PUBACK frame followed by other bytes -/
example : IsFrame .pubAck [0x40, 2, 0, 7] ∧
    ∃ p, Packet.read [0x40, 2, 0, 7, 0xff, 0xff] = (.ok (.pubAck p), [0xff, 0xff]) :=
  ⟨⟨0x40, [2], [0, 7], rfl, by constructor <;> simp [typeNumber, mandatedFlags],
    ⟨[], 2, rfl, by decide, by simp, by simp [more]⟩, rfl⟩, _, rfl⟩

/-- **C12 is false of the code** for a first byte MQTT does not define: the error is reported and the
bytes stay in the buffer. -/
theorem C12_frame_isolation_violated (rest : Bytes) :
    Packet.read (0x00 :: 0 :: rest) = (.error (.err (.de (.unknownFixedHeader 0))), 0x00 :: 0 :: rest) := by
  have ht : PacketType.fromFirstByte 0x00 = .error (.unknownFixedHeader 0) := rfl
  have hv : IsVbi [0] := ⟨[], 0, rfl, by decide, by simp, by simp [more]⟩
  have := FixedHeader.read_isVbi 0x00 hv rest
  rw [ht] at this
  rw [Packet.read]
  simp only [List.singleton_append] at this
  rw [this]

/-- **C14.** Cut anywhere before its end, the frame of a packet makes the buffered reader ask for more:
at least one byte, at most the bytes missing, nothing removed; and once the header is complete exactly
the bytes missing. A packet or decoding error obtained from a buffer stays the same when more bytes
have arrived. -/
theorem C14_incomplete_frames :
    (∀ t g h, IsFrame t (g ++ h) → h ≠ [] → ∃ n, Packet.read g = (.error (.insufficientBytes n), g) ∧
      1 ≤ n ∧ n ≤ h.length ∧ (∀ hdr k, FixedHeader.read g = .ok (hdr, k) → n = h.length)) ∧
    (∀ b p rest more, Packet.read b = (.ok p, rest) → Packet.read (b ++ more) = (.ok p, rest ++ more)) ∧
    (∀ b e rest more, Packet.read b = (.error (.err e), rest) →
      Packet.read (b ++ more) = (.error (.err e), rest ++ more)) := by
  have ext : ∀ b r rest more, Packet.read b = (r, rest) → (∀ n, r ≠ .error (.insufficientBytes n)) →
      Packet.read (b ++ more) = (r, rest ++ more) := by
    intro b r rest more h hr
    rcases Packet.read_cases b with ⟨first, len, body, rest', t, flags, rfl, ht, hv, hb⟩ | ⟨n, hn⟩ | ⟨e, he⟩
    · rw [Packet.read_isVbi ht hv hb] at h
      rw [List.cons_append, List.append_assoc, List.append_assoc, Packet.read_isVbi ht hv hb]
      cases h; rfl
    · rw [hn] at h; cases h; exact absurd rfl (hr n)
    · rw [he] at h
      simp only [Prod.mk.injEq] at h
      obtain ⟨rfl, rfl⟩ := h
      -- the header is rejected, whatever follows
      cases hh : FixedHeader.read b with
      | ok x =>
        rw [Packet.read, hh] at he
        simp only at he
        split at he
        · cases he
        · rename_i hl
          have h2 := congrArg Prod.snd he
          simp only [List.drop_drop] at h2
          have h3 := congrArg List.length h2
          rw [List.length_drop] at h3
          obtain ⟨hdr, k⟩ := x
          have hk : 1 ≤ k := by
            rw [FixedHeader.read.eq_def] at hh
            split at hh
            · cases hh
            · split at hh
              · cases hh
              · split at hh
                · cases hh
                · split at hh
                  · cases hh
                  · cases hh; omega
          simp only at h3 hl
          omega
      | error x =>
        rw [Packet.read, hh] at he
        cases he
        have hh' : FixedHeader.read (b ++ more) = .error (.err (.de e)) := by
          rw [FixedHeader.read.eq_def] at hh ⊢
          split at hh
          · cases hh
          · rename_i hlen
            rw [if_neg (by simp; omega)]
            cases b with
            | nil => simp at hlen
            | cons first r =>
              simp only [List.cons_append] at hh ⊢
              cases ht : PacketType.fromFirstByte first with
              | error e => rw [ht] at hh; exact hh
              | ok v =>
                obtain ⟨t, flags⟩ := v
                rw [ht] at hh
                simp only at hh ⊢
                cases hm : VarInt.remLen r with
                | ok _ => rw [hm] at hh; cases hh
                | error e' =>
                  rw [hm] at hh
                  cases hh
                  rcases VarInt.vbi_or_open 4 r with ⟨init, last, s, rfl, g1, g2, g3⟩ | ho
                  · have := (VarInt.isVbi_reads ⟨init, last, rfl, g1, g2, g3⟩ s).2.2
                    rw [List.append_assoc, List.singleton_append, hm] at this
                    cases this
                  · rw [VarInt.remLen, VarInt.remLenLoop_eq, VarInt.readLoop_open .eof _ 4 0 0 ho] at hm
                    by_cases h4 : 4 ≤ r.length
                    · have ho' : ∀ b ∈ (r ++ more).take 4, Spec.more b := by
                        rw [List.take_append_of_le_length h4]; exact ho
                      rw [VarInt.remLen, VarInt.remLenLoop_eq, VarInt.readLoop_open .eof _ 4 0 0 ho',
                        if_pos (by simp; omega)]
                      rw [if_pos h4] at hm
                      rw [hm]
                    · rw [if_neg h4] at hm
                      cases hm
        rw [Packet.read, hh']
  refine ⟨?_, fun b p rest more h => ext b _ rest more h (by simp),
    fun b e rest more h => ext b _ rest more h (by simp)⟩
  rintro t g h ⟨first, len, body, e, hf, hv, hb⟩ hne
  obtain ⟨flags, ht⟩ := ((C06_first_byte_accepted first).1 t).2 hf
  have hpos : 0 < h.length := List.length_pos_iff.2 hne
  have hlpos := VarInt.isVbi_pos hv
  have hlen : g.length + h.length = 1 + len.length + body.length := by
    have := congrArg List.length e
    simp only [List.length_append, List.length_cons] at this; omega
  rcases Nat.lt_or_ge g.length 2 with h2 | h2
  · have hh : FixedHeader.read g = .error (.insufficientBytes (2 - g.length)) := by
      rw [FixedHeader.read.eq_def, if_pos h2]
    refine ⟨2 - g.length, ?_, by omega, by omega, ?_⟩
    · rw [Packet.read, hh]
    · intro hdr k hk; rw [hh] at hk; cases hk
  · cases g with
    | nil => simp at h2
    | cons x g =>
      simp only [List.cons_append, List.cons.injEq] at e
      obtain ⟨rfl, e⟩ := e
      simp only [List.length_cons] at hlen h2
      rcases Nat.lt_or_ge g.length len.length with h3 | h3
      · -- the cut is inside the length
        obtain ⟨len2, rfl⟩ : g <+: len :=
          List.prefix_of_prefix_length_le ⟨h, e⟩ (List.prefix_append _ _) (by omega)
        have hl2 : len2 ≠ [] := by rintro rfl; simp at h3
        have hm := VarInt.remLen_prefix hv hl2
        have hh : FixedHeader.read (x :: g) = .error (.insufficientBytes 1) := by
          rw [FixedHeader.read, if_neg (by simp; omega)]
          simp only [ht, hm]
        refine ⟨1, ?_, by omega, by omega, ?_⟩
        · rw [Packet.read, hh]
        · intro hdr k hk; rw [hh] at hk; cases hk
      · obtain ⟨g2, rfl⟩ : len <+: g :=
          List.prefix_of_prefix_length_le (List.prefix_append _ _) ⟨h, e⟩ h3
        simp only [List.length_append] at hlen
        have hh := FixedHeader.read_isVbi x hv g2
        rw [ht] at hh
        refine ⟨h.length, ?_, by omega, by omega, fun _ _ _ => rfl⟩
        rw [Packet.read, hh]
        simp only [List.length_cons, List.length_append]
        rw [if_pos (by omega)]
        congr 3
        omega

/-- a PUBACK frame cut after three bytes -/
example : Packet.read [0x40, 2, 0] = (.error (.insufficientBytes 1), [0x40, 2, 0]) := rfl

/-- **C14**, for the packets themselves: every packet the buffered writer writes is a frame, so the
above applies to all its strict prefixes (the one class excepted in C11 apart). -/
theorem C14_written_packets (p : Packet) (h : ¬ EmptyAuthData p) (g k : Bytes)
    (hw : p.write = .ok (g ++ k)) (hk : k ≠ []) :
    ∃ n, Packet.read g = (.error (.insufficientBytes n), g) ∧ 1 ≤ n ∧ n ≤ k.length := by
  obtain ⟨a, b, h1, h2, e⟩ := Wr.append_eq_ok.1 hw
  obtain ⟨c, d, h3, h4, rfl⟩ := Wr.append_eq_ok.1 h1
  cases h3
  rw [Packet.lenWrite_eq] at h4
  obtain ⟨v1, v2⟩ := VarInt.write_isVbi h4
  obtain ⟨n, h5, h6, h7, -⟩ := C14_incomplete_frames.1 p.type g k
    ⟨p.firstByte, d, b, by rw [e]; rfl, (C06_first_byte_written p).1, v1,
      by rw [v2, Packet.bodyWrite_length h h2]⟩ hk
  exact ⟨n, h5, h6, h7⟩

example : ∃ bs, connect1.write = .ok ([0x10] ++ bs) ∧ bs ≠ [] ∧ ¬ EmptyAuthData connect1 :=
  ⟨_, rfl, List.cons_ne_nil _ _, connect1_plain.1⟩

end Mqrstt.Props
