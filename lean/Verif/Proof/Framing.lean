import Verif.Proof.Frame
import Verif.Spec.Frame
import Verif.Props.Codes
/-! # Lemmas about frames at the start of a buffer -/

namespace Mqrstt
open Spec

namespace VarInt

theorem isVbi_reads {len : Bytes} (h : IsVbi len) (rest : Bytes) :
    read (len ++ rest) = .ok ((vbiValue len, len.length), rest) ∧
    asyncRead (len ++ rest) = .ok ((vbiValue len, len.length), rest) ∧
    remLen (len ++ rest) = .ok (vbiValue len, len.length) := by
  obtain ⟨init, last, rfl, h1, h2, h3⟩ := h
  have key := fun miss => readLoop_vbi miss rest init last 4 0 0 h1 h2 h3
  simp only [Nat.mul_zero, Nat.pow_zero, Nat.mul_one, Nat.zero_add] at key
  have hl : (init ++ [last]).length = init.length + 1 := by simp
  rw [hl, List.append_assoc, List.singleton_append]
  refine ⟨key _, key _, ?_⟩
  rw [remLen, remLenLoop_eq, key]

/-- a strict prefix of a variable byte integer -/
theorem remLen_prefix {g h : Bytes} (hv : IsVbi (g ++ h)) (hh : h ≠ []) :
    remLen g = .error (.insufficientBytes 1) := by
  obtain ⟨init, last, e, h1, h2, h3⟩ := hv
  have hlen : g.length + h.length = init.length + 1 := by
    have := congrArg List.length e; simpa using this
  have hpos : 0 < h.length := List.length_pos_iff.2 hh
  have hg : ∀ b ∈ g.take 4, more b := by
    intro b hb
    apply h2
    have hp : g <+: init := by
      have hp1 : g <+: init ++ [last] := ⟨h, e⟩
      exact List.prefix_of_prefix_length_le hp1 (List.prefix_append _ _) (by omega)
    exact hp.subset (List.mem_of_mem_take hb)
  rw [remLen, remLenLoop_eq, readLoop_open .eof g 4 0 0 hg, if_neg (by omega)]

theorem isVbi_pos {len : Bytes} (h : IsVbi len) : 1 ≤ len.length := by
  obtain ⟨init, last, rfl, -⟩ := h; simp

/-- what the frame reader accepted was a complete variable byte integer -/
theorem remLen_ok {b : Bytes} {n k : Nat} (h : remLen b = .ok (n, k)) :
    ∃ len rest, b = len ++ rest ∧ IsVbi len ∧ vbiValue len = n ∧ len.length = k := by
  rcases vbi_or_open 4 b with ⟨init, last, rest, rfl, h1, h2, h3⟩ | ho
  · have hv : IsVbi (init ++ [last]) := ⟨init, last, rfl, h1, h2, h3⟩
    have := (isVbi_reads hv rest).2.2
    rw [List.append_assoc, List.singleton_append, h] at this
    cases this
    exact ⟨_, rest, by simp, hv, rfl, rfl⟩
  · rw [remLen, remLenLoop_eq, readLoop_open .eof b 4 0 0 ho] at h
    split at h <;> rename_i h' <;> split at h' <;> cases h' <;> cases h

theorem asyncRead_ok {b rest : Bytes} {n k : Nat} (h : asyncRead b = .ok ((n, k), rest)) :
    ∃ len, b = len ++ rest ∧ IsVbi len ∧ vbiValue len = n ∧ len.length = k := by
  rcases vbi_or_open 4 b with ⟨init, last, rest, rfl, h1, h2, h3⟩ | ho
  · have hv : IsVbi (init ++ [last]) := ⟨init, last, rfl, h1, h2, h3⟩
    have := (isVbi_reads hv rest).2.1
    rw [List.append_assoc, List.singleton_append, h] at this
    cases this
    exact ⟨_, by simp, hv, rfl, rfl⟩
  · rw [asyncRead, readLoop_open .eof b 4 0 0 ho] at h
    split at h <;> cases h

theorem read_ok {b rest : Bytes} {n k : Nat} (h : read b = .ok ((n, k), rest)) :
    ∃ len, b = len ++ rest ∧ IsVbi len ∧ vbiValue len = n ∧ len.length = k := by
  rcases vbi_or_open 4 b with ⟨init, last, rest, rfl, h1, h2, h3⟩ | ho
  · have hv : IsVbi (init ++ [last]) := ⟨init, last, rfl, h1, h2, h3⟩
    have := (isVbi_reads hv rest).1
    rw [List.append_assoc, List.singleton_append, h] at this
    cases this
    exact ⟨_, by simp, hv, rfl, rfl⟩
  · rw [read, readLoop_open _ b 4 0 0 ho] at h
    split at h <;> cases h

end VarInt

theorem FixedHeader.read_isVbi (first : UInt8) {len : Bytes} (hv : IsVbi len) (rest : Bytes) :
    FixedHeader.read (first :: (len ++ rest)) =
      match PacketType.fromFirstByte first with
      | .error e => .error (.err (.de e))
      | .ok (t, flags) => .ok (⟨t, flags, vbiValue len⟩, 1 + len.length) := by
  have := VarInt.isVbi_pos hv
  rw [FixedHeader.read, if_neg (by simp; omega)]
  simp only [(VarInt.isVbi_reads hv rest).2.2]
  cases PacketType.fromFirstByte first <;> rfl

theorem FixedHeader.asyncRead_isVbi (first : UInt8) {len : Bytes} (hv : IsVbi len) (rest : Bytes) :
    FixedHeader.asyncRead (first :: (len ++ rest)) =
      match PacketType.fromFirstByte first with
      | .error e => .error (.de e)
      | .ok (t, flags) => .ok ((⟨t, flags, vbiValue len⟩, 1 + len.length), rest) := by
  rw [FixedHeader.asyncRead]
  cases h : PacketType.fromFirstByte first <;>
    simp [Rd.bind_apply, Rd.lift, h, (VarInt.isVbi_reads hv rest).2.1]

/-- reading a buffer that starts with a whole frame, with any encoding of the length -/
theorem Packet.read_isVbi {first : UInt8} {t : PacketType} {flags : UInt8}
    (ht : PacketType.fromFirstByte first = .ok (t, flags)) {len body : Bytes} (hv : IsVbi len)
    (hb : vbiValue len = body.length) (rest : Bytes) :
    Packet.read (first :: (len ++ (body ++ rest))) =
      (match Packet.readPacket ⟨t, flags, body.length⟩ body with
        | .ok p => .ok p
        | .error e => .error (.err e), rest) := by
  rw [Packet.read, FixedHeader.read_isVbi _ hv, ht]
  simp only [List.length_cons, List.length_append, hb]
  rw [if_neg (by omega)]
  have h1 : List.drop (1 + len.length) (first :: (len ++ (body ++ rest))) = body ++ rest := by
    rw [Nat.add_comm, List.drop_succ_cons, List.drop_left]
  rw [h1, List.take_left, List.drop_left]
  cases Packet.readPacket ⟨t, flags, body.length⟩ body <;> rfl

theorem Packet.bodyRead_type {h : FixedHeader} {b rest : Bytes} {p : Packet}
    (e : Packet.bodyRead h b = .ok (p, rest)) : p.type = h.type := by
  obtain ⟨t, f, n⟩ := h
  cases t <;> simp only [Packet.bodyRead, Rd.map] at e
  all_goals first
    | (obtain ⟨a, b', -, e2⟩ := Rd.bind_eq_ok.1 e; cases e2; rfl)
    | (cases e; rfl)

theorem Packet.asyncReadPacket_type {h : FixedHeader} {b rest : Bytes} {p : Packet}
    (e : Packet.asyncReadPacket h b = .ok (p, rest)) : p.type = h.type := by
  obtain ⟨t, f, n⟩ := h
  cases t <;> simp only [Packet.asyncReadPacket, Rd.map] at e
  all_goals first
    | (obtain ⟨a, b', -, e2⟩ := Rd.bind_eq_ok.1 e; cases e2; rfl)
    | (cases e; rfl)

/-- what the buffered reader can do with a buffer -/
theorem Packet.read_cases (b : Bytes) :
    -- a whole frame
    (∃ first len body rest t flags, b = first :: (len ++ (body ++ rest)) ∧
      PacketType.fromFirstByte first = .ok (t, flags) ∧ IsVbi len ∧ vbiValue len = body.length) ∨
    -- too short, or header fine but body incomplete
    (∃ n, Packet.read b = (.error (.insufficientBytes n), b)) ∨
    -- bad header
    (∃ e, Packet.read b = (.error (.err (.de e)), b)) := by
  cases hh : FixedHeader.read b with
  | error e =>
    right
    have hr : Packet.read b = (.error e, b) := by rw [Packet.read, hh]
    rw [hr]
    cases e with
    | insufficientBytes n => exact .inl ⟨n, rfl⟩
    | err f =>
      rw [FixedHeader.read.eq_def] at hh
      split at hh
      · cases hh
      · rename_i hlen
        split at hh
        · simp at hlen
        · split at hh
          · cases hh; exact .inr ⟨_, rfl⟩
          · split at hh
            · rename_i e he
              cases hh
              rw [VarInt.remLen, VarInt.remLenLoop_eq] at he
              rcases VarInt.vbi_or_open 4 ‹Bytes› with ⟨init, last, rest, rfl, h1, h2, h3⟩ | ho
              · rw [VarInt.readLoop_vbi .eof rest init last 4 0 0 h1 h2 h3] at he
                cases he
              · rw [VarInt.readLoop_open .eof _ 4 0 0 ho] at he
                by_cases h4 : 4 ≤ (List.length ‹Bytes›)
                · rw [if_pos h4] at he; cases he; exact .inr ⟨_, rfl⟩
                · rw [if_neg h4] at he; cases he
            · cases hh
  | ok r =>
    obtain ⟨h, hl⟩ := r
    rw [Packet.read, hh]
    simp only
    have hh0 := hh
    rw [FixedHeader.read.eq_def] at hh
    split at hh
    · cases hh
    · rename_i hlen
      split at hh
      · simp at hlen
      · rename_i first rest
        split at hh
        · cases hh
        · rename_i t flags ht
          split at hh
          · cases hh
          · rename_i n k hk
            cases hh
            obtain ⟨len, r, rfl, hv, rfl, rfl⟩ := VarInt.remLen_ok hk
            split
            · exact .inr (.inl ⟨_, rfl⟩)
            · rename_i hle
              left
              simp only [List.length_cons, List.length_append] at hle
              refine ⟨first, len, r.take (vbiValue len), r.drop (vbiValue len), t, flags, ?_, ht,
                hv, ?_⟩
              · rw [List.take_append_drop]
              · rw [List.length_take]; omega

end Mqrstt
