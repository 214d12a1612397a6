import Verif.Proof.Prim
import Verif.Model.Packet
/-! # Lemmas about first bytes, reason codes and option bytes -/

namespace Mqrstt

theorem forall_u8 {P : UInt8 → Prop} (h : ∀ y : Fin 256, P (UInt8.ofNat y.val)) (v : UInt8) : P v := by
  have := h ⟨v.toNat, v.toNat_lt⟩
  simpa using this

theorem Reason.fromU8_mem {codes : List Reason} {v : UInt8} {r : Reason}
    (h : Reason.fromU8 codes v = .ok r) : r ∈ codes ∧ r.toU8 = v := by
  unfold Reason.fromU8 at h
  split at h
  · rename_i c hc
    cases h
    exact ⟨List.mem_of_find?_eq_some hc, by simpa using List.find?_some hc⟩
  · cases h

/-- on a list without two names for the same byte, `fromU8` inverts `toU8` -/
theorem Reason.fromU8_toU8 {codes : List Reason}
    (hd : (codes.map Reason.toU8).Nodup) {r : Reason} (h : r ∈ codes) :
    Reason.fromU8 codes r.toU8 = .ok r := by
  have hs : codes.find? (fun c => c.toU8 = r.toU8) = some r := by
    induction codes with
    | nil => cases h
    | cons c cs ih =>
      simp only [List.map_cons, List.nodup_cons, List.mem_map, not_exists, not_and] at hd
      rcases List.mem_cons.1 h with rfl | h'
      · simp
      · have : c.toU8 ≠ r.toU8 := fun e => hd.1 r h' e.symm
        simp [this, ih hd.2 h']
  simp only [Reason.fromU8, hs]

theorem Reason.read_cons (codes : List Reason) (v : UInt8) (rest : Bytes) :
    Reason.read codes (v :: rest) =
      match Reason.fromU8 codes v with
      | .ok r => .ok (r, rest)
      | .error e => .error (.de e) := by
  simp only [Reason.read, Rd.bufLen_bind, List.length_cons, Rd.ite_apply]
  rw [if_neg (by omega), Rd.bind_ok (getU8_cons _ _)]
  cases Reason.fromU8 codes v <;> rfl

theorem Reason.asyncRead_cons (codes : List Reason) (v : UInt8) (rest : Bytes) :
    Reason.asyncRead codes (v :: rest) =
      match Reason.fromU8 codes v with
      | .ok r => .ok ((r, 1), rest)
      | .error e => .error (.de e) := by
  simp only [Reason.asyncRead]
  rw [Rd.bind_ok (aU8_cons _ _)]
  cases Reason.fromU8 codes v <;> rfl

theorem Reason.read_toU8 {codes : List Reason} (hd : (codes.map Reason.toU8).Nodup) {r : Reason}
    (h : r ∈ codes) (rest : Bytes) : Reason.read codes (r.toU8 :: rest) = .ok (r, rest) := by
  rw [Reason.read_cons, Reason.fromU8_toU8 hd h]

theorem Reason.asyncRead_toU8 {codes : List Reason} (hd : (codes.map Reason.toU8).Nodup) {r : Reason}
    (h : r ∈ codes) (rest : Bytes) :
    Reason.asyncRead codes (r.toU8 :: rest) = .ok ((r, 1), rest) := by
  rw [Reason.asyncRead_cons, Reason.fromU8_toU8 hd h]

theorem SubOptions.ofByte_toByte (o : SubOptions) : SubOptions.ofByte o.toByte = .ok o := by
  obtain ⟨rh, rap, nl, q⟩ := o
  cases rh <;> cases rap <;> cases nl <;> cases q <;> rfl

@[simp] theorem SubOptions.read_toByte (o : SubOptions) (rest : Bytes) :
    SubOptions.read (o.toByte :: rest) = .ok (o, rest) := by
  simp [SubOptions.read, Rd.bind_apply, SubOptions.ofByte_toByte]

@[simp] theorem SubOptions.asyncRead_toByte (o : SubOptions) (rest : Bytes) :
    SubOptions.asyncRead (o.toByte :: rest) = .ok ((o, 1), rest) := by
  simp [SubOptions.asyncRead, Rd.bind_apply, SubOptions.ofByte_toByte]

theorem ConnectFlags.fromU8_toU8 (f : ConnectFlags) : ConnectFlags.fromU8 f.toU8 = .ok f := by
  obtain ⟨a, b, q, c, d, e⟩ := f
  cases a <;> cases b <;> cases q <;> cases c <;> cases d <;> cases e <;> rfl

@[simp] theorem ConnectFlags.read_toU8 (f : ConnectFlags) (rest : Bytes) :
    ConnectFlags.read (f.toU8 :: rest) = .ok (f, rest) := by
  simp [ConnectFlags.read, Rd.bind_apply, ConnectFlags.fromU8_toU8]

@[simp] theorem ConnectFlags.asyncRead_toU8 (f : ConnectFlags) (rest : Bytes) :
    ConnectFlags.asyncRead (f.toU8 :: rest) = .ok ((f, 1), rest) := by
  simp [ConnectFlags.asyncRead, Rd.bind_apply, ConnectFlags.fromU8_toU8]

/-- the flags passed on to the body reader -/
def Packet.headerFlags : Packet → UInt8
  | .publish p => Packet.publishFirstByte p &&& 0x0f
  | _ => 0

theorem Packet.fromFirstByte_firstByte (p : Packet) :
    PacketType.fromFirstByte p.firstByte = .ok (p.type, p.headerFlags) := by
  cases p with
  | publish p =>
    obtain ⟨dup, q, ret, t, i, P, pl⟩ := p
    cases dup <;> cases q <;> cases ret <;>
      simp only [Packet.firstByte, Packet.headerFlags, Packet.publishFirstByte, Packet.type,
        if_true, Bool.false_eq_true, if_false] <;> decide
  | _ => simp only [Packet.firstByte, Packet.headerFlags, Packet.type]; decide

theorem Packet.headerFlags_publish (p : Publish) :
    ((Packet.headerFlags (.publish p) &&& 0b1000 != 0) = p.dup) ∧
    QoS.fromU8 ((Packet.headerFlags (.publish p) &&& 0b110) >>> 1) = .ok p.qos ∧
    ((Packet.headerFlags (.publish p) &&& 0b1 != 0) = p.retain) := by
  obtain ⟨dup, q, ret, t, i, P, pl⟩ := p
  cases dup <;> cases q <;> cases ret <;>
      simp only [Packet.headerFlags, Packet.publishFirstByte,
        if_true, Bool.false_eq_true, if_false] <;> decide

end Mqrstt
