import Verif.Proof.ReadBack
/-! # Fixed header and body together -/

namespace Mqrstt
open Spec

/-- the frame of a packet -/
def Packet.frame (ord : List Entry) (p : Packet) : Bytes :=
  p.firstByte :: (vbi p.bodyWireLen ++ p.bodyBytes ord)

theorem Packet.lenWrite_eq (p : Packet) : p.lenWrite = VarInt.write p.bodyWireLen := by
  cases p <;> rfl

theorem Packet.lenAsyncWrite_eq (p : Packet) : p.lenAsyncWrite = VarInt.asyncWrite p.bodyWireLen := by
  cases p <;> rfl

theorem Packet.wireLen_eq (p : Packet) :
    p.wireLen = 1 + VarInt.len p.bodyWireLen + p.bodyWireLen := by
  cases p <;> rfl

theorem Packet.write_overflow (p : Packet) (h : 268435455 < p.bodyWireLen) :
    p.write = .error (.variableIntegerOverflow p.bodyWireLen) ∧
    p.asyncWrite = .error (.variableIntegerOverflow p.bodyWireLen) := by
  simp [Packet.write, Packet.asyncWrite, Packet.lenWrite_eq, Packet.lenAsyncWrite_eq,
    VarInt.write_error _ h]

theorem BodyOk.write_frame {p : Packet} (h : BodyOk p) : p.write = .ok (p.frame publishOrder) := by
  simp [Packet.write, Packet.lenWrite_eq, write_vbi h.fit, h.write, Packet.frame]

theorem BodyOk.asyncWrite_frame {p : Packet} (h : BodyOk p) (hc : ¬ HasAssignedId p) :
    ∃ n, p.asyncWrite = .ok (p.frame publishEntries, n) ∧
      (¬ HasServerRef p → n = (p.frame publishEntries).length) := by
  obtain ⟨n, e, hn⟩ := h.asyncWrite hc
  refine ⟨_, by simp only [Packet.asyncWrite, Packet.lenAsyncWrite_eq, asyncWrite_vbi h.fit, e]; rfl, ?_⟩
  intro hs
  rw [hn hs]
  simp [Packet.frame]
  omega

/-- the fixed header of any first byte and remaining length, at the start of a buffer -/
theorem FixedHeader.read_vbi (first : UInt8) (n : Nat) (hn : n ≤ 268435455) (rest : Bytes) :
    FixedHeader.read (first :: (vbi n ++ rest)) =
      match PacketType.fromFirstByte first with
      | .error e => .error (.err (.de e))
      | .ok (t, flags) => .ok (⟨t, flags, n⟩, 1 + (vbi n).length) := by
  obtain ⟨-, hl, -, -, -, hr⟩ := VarInt.write_ok_iff _ _ (write_vbi hn)
  have := VarInt.len_pos n
  rw [FixedHeader.read, if_neg (by simp; omega)]
  simp only [hr]
  cases PacketType.fromFirstByte first <;> rfl

theorem FixedHeader.asyncRead_vbi (first : UInt8) (n : Nat) (hn : n ≤ 268435455) (rest : Bytes) :
    FixedHeader.asyncRead (first :: (vbi n ++ rest)) =
      match PacketType.fromFirstByte first with
      | .error e => .error (.de e)
      | .ok (t, flags) => .ok ((⟨t, flags, n⟩, 1 + (vbi n).length), rest) := by
  obtain ⟨-, hl, -, -, hr, -⟩ := VarInt.write_ok_iff _ _ (write_vbi hn)
  rw [FixedHeader.asyncRead]
  cases h : PacketType.fromFirstByte first <;> simp [Rd.bind_apply, Rd.lift, h, hr]

/-- reading a buffer that starts with a whole frame -/
theorem Packet.read_frame (first : UInt8) (t : PacketType) (flags : UInt8)
    (ht : PacketType.fromFirstByte first = .ok (t, flags)) (body rest : Bytes)
    (hb : body.length ≤ 268435455) :
    Packet.read (first :: (vbi body.length ++ (body ++ rest))) =
      (match Packet.readPacket ⟨t, flags, body.length⟩ body with
        | .ok p => .ok p
        | .error e => .error (.err e), rest) := by
  rw [Packet.read, FixedHeader.read_vbi _ _ hb, ht]
  simp only [List.length_cons, List.length_append]
  rw [if_neg (by omega)]
  have h1 : List.drop (1 + (vbi body.length).length) (first :: (vbi body.length ++ (body ++ rest)))
      = body ++ rest := by
    rw [Nat.add_comm, List.drop_succ_cons, List.drop_left]
  rw [h1, List.take_left, List.drop_left]
  cases Packet.readPacket ⟨t, flags, body.length⟩ body <;> rfl

theorem BodyOk.read_frame {p : Packet} (h : BodyOk p) (hw : ¬ WillWithFormat p) (hr : ¬ ShortAck p)
    {ord : List Entry} (ho : ord.Perm publishEntries) (rest : Bytes) :
    Packet.read (p.frame ord ++ rest) = (.ok p, rest) := by
  have hl := h.length ho
  have := Packet.read_frame p.firstByte p.type p.headerFlags (Packet.fromFirstByte_firstByte p)
    (p.bodyBytes ord) rest (by rw [hl]; exact h.fit)
  rw [hl] at this
  rw [Packet.frame, List.cons_append, List.append_assoc, this]
  have hr := h.read hw hr ho
  simp only [Packet.header] at hr
  simp only [Packet.readPacket, hr]

theorem BodyOk.asyncRead_frame {p : Packet} (h : BodyOk p) (hr : ¬ ShortAck p) (hm : ¬ ManyTopics p)
    {ord : List Entry} (ho : ord.Perm publishEntries) (rest : Bytes) :
    Packet.asyncRead (p.frame ord ++ rest) = .ok (p, rest) := by
  have hr := h.asyncRead hr hm ho rest
  simp only [Packet.header] at hr
  rw [Packet.asyncRead, Packet.frame, List.cons_append, List.append_assoc, Rd.bind_apply,
    FixedHeader.asyncRead_vbi _ _ h.fit, Packet.fromFirstByte_firstByte]
  exact hr

theorem BodyOk.of {p : Packet} (wf : WF p) (hf : p.bodyWireLen ≤ 268435455)
    (ha : ¬ EmptyAuthData p) : BodyOk p :=
  ⟨wf, hf, fun P hP h => ha ⟨P, hP, h⟩⟩

end Mqrstt
