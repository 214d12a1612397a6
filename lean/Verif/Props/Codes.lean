import Verif.Proof.Codes
import Verif.Spec.Codes
/-!
# C06, C07, C17: first bytes, reason codes, subscription options
-/

namespace Mqrstt.Props
open Mqrstt Spec

/-- **C06.** A first byte is accepted as type `t` exactly when MQTT allows it for `t`, and otherwise
reported; for PUBLISH the four flag bits are passed on. -/
theorem C06_first_byte_accepted (v : UInt8) :
    (∀ t, (∃ f, PacketType.fromFirstByte v = .ok (t, f)) ↔ FirstByteAllowed t v) ∧
    ((∀ t, ¬ FirstByteAllowed t v) → PacketType.fromFirstByte v = .error (.unknownFixedHeader v)) ∧
    (∀ f, PacketType.fromFirstByte v = .ok (.publish, f) → f.toNat = v.toNat % 16) := by
  have h : ∀ y : Fin 256,
      (∀ t, (match PacketType.fromFirstByte (UInt8.ofNat y.val) with
          | .ok (t', _) => decide (t' = t)
          | .error _ => false) = true ↔
        (UInt8.ofNat y.val).toNat / 16 = typeNumber t ∧
          (mandatedFlags t).all (fun f => (UInt8.ofNat y.val).toNat % 16 == f) = true) ∧
      (match PacketType.fromFirstByte (UInt8.ofNat y.val) with
        | .ok (.publish, f) => decide (f.toNat = (UInt8.ofNat y.val).toNat % 16)
        | .ok _ => true
        | .error e => decide (e = .unknownFixedHeader (UInt8.ofNat y.val))) = true := by
    intro y
    refine ⟨fun t => ?_, ?_⟩
    · revert y; cases t <;> decide +kernel
    · revert y; decide +kernel
  have h := forall_u8 (P := fun v =>
      (∀ t, (match PacketType.fromFirstByte v with
          | .ok (t', _) => decide (t' = t)
          | .error _ => false) = true ↔
        v.toNat / 16 = typeNumber t ∧
          (mandatedFlags t).all (fun f => v.toNat % 16 == f) = true) ∧
      (match PacketType.fromFirstByte v with
        | .ok (.publish, f) => decide (f.toNat = v.toNat % 16)
        | .ok _ => true
        | .error e => decide (e = .unknownFixedHeader v)) = true) h v
  obtain ⟨h1, h2⟩ := h
  have key : ∀ t, (∃ f, PacketType.fromFirstByte v = .ok (t, f)) ↔ FirstByteAllowed t v := by
    intro t
    have := h1 t
    unfold FirstByteAllowed
    constructor
    · rintro ⟨f, hf⟩
      simp only [hf, decide_true, true_iff] at this
      refine ⟨this.1, fun f hf => ?_⟩
      have h3 := this.2
      rw [hf] at h3
      simpa using h3
    · rintro ⟨a, b⟩
      have hb : (mandatedFlags t).all (fun f => v.toNat % 16 == f) = true := by
        cases hm : mandatedFlags t with
        | none => rfl
        | some f => simpa using b f hm
      have h4 := this.2 ⟨a, hb⟩
      split at h4
      · rename_i t' f hf
        simp only [decide_eq_true_eq] at h4
        subst h4
        exact ⟨f, hf⟩
      · cases h4
  refine ⟨key, ?_, ?_⟩
  · intro hn
    split at h2
    · rename_i f hf; exact absurd ((key _).1 ⟨_, hf⟩) (hn _)
    · rename_i r _ hf; exact absurd ((key r.1).1 ⟨r.2, hf⟩) (hn _)
    · rename_i e he; rw [he]; simpa using h2
  · intro f hf
    rw [hf] at h2
    simpa using h2

example : FirstByteAllowed .pubRel 0x62 ∧ FirstByteAllowed .publish 0x3d := by
  constructor <;> (constructor <;> simp [typeNumber, mandatedFlags])

/-- **C06.** Every written packet, of whatever type and by either writer, starts with a byte allowed
for its type; for PUBLISH it carries DUP, QoS and RETAIN. -/
theorem C06_first_byte_written (p : Packet) :
    FirstByteAllowed p.type p.firstByte ∧
    (∀ bs, p.write = .ok bs → ∃ rest, bs = p.firstByte :: rest) ∧
    (∀ bs n, p.asyncWrite = .ok (bs, n) → ∃ rest, bs = p.firstByte :: rest) ∧
    (∀ q, p = .publish q → p.firstByte.toNat % 16 = publishFlags q.dup q.qos q.retain) := by
  refine ⟨?_, ?_, ?_, ?_⟩
  · rw [← (C06_first_byte_accepted p.firstByte).1]
    exact ⟨_, Packet.fromFirstByte_firstByte p⟩
  · intro bs h
    simp only [Packet.write] at h
    obtain ⟨a, b, h1, -, rfl⟩ := Wr.append_eq_ok.1 h
    obtain ⟨c, d, h2, -, rfl⟩ := Wr.append_eq_ok.1 h1
    cases h2
    exact ⟨_, rfl⟩
  · intro bs n h
    simp only [Packet.asyncWrite] at h
    obtain ⟨a, _, b, _, h1, -, rfl, -⟩ := AWr.append_eq_ok.1 h
    obtain ⟨c, _, d, _, h2, -, rfl, -⟩ := AWr.append_eq_ok.1 h1
    cases h2
    exact ⟨_, rfl⟩
  · rintro q rfl
    obtain ⟨dup, q, ret, t, i, P, pl⟩ := q
    cases dup <;> cases q <;> cases ret <;>
      simp only [Packet.firstByte, Packet.publishFirstByte, publishFlags,
        if_true, Bool.false_eq_true, if_false] <;> decide

example : (Packet.publish (.new .exactlyOnce true .empty (some 1) .empty [])).firstByte = 0x35 := by
  decide

/-- **C07.** For every packet type: a byte is accepted as reason code, by both readers, exactly when
it is in the table of the MQTT specification; the accepted code is one of the type's codes and is
written as that byte; and every code of the type is read back from the byte it is written as. -/
theorem C07_reason_codes (t : PacketType) :
    (∀ v, (∃ r, Reason.fromU8 (codeNames t) v = .ok r) ↔ v ∈ reasonCodes t) ∧
    (∀ v rest r, Reason.read (codeNames t) (v :: rest) = .ok (r, rest) →
      r ∈ codeNames t ∧ r.write = .ok [v] ∧ r.asyncWrite = .ok ([v], 1)) ∧
    (∀ r ∈ codeNames t, ∀ rest, ∃ v, v ∈ reasonCodes t ∧ r.write = .ok [v] ∧
      Reason.read (codeNames t) (v :: rest) = .ok (r, rest) ∧
      Reason.asyncRead (codeNames t) (v :: rest) = .ok ((r, 1), rest)) ∧
    (∀ v rest, Reason.fromU8 (codeNames t) v = .error (.unknownProperty v) →
      Reason.read (codeNames t) (v :: rest) = .error (.de (.unknownProperty v)) ∧
      Reason.asyncRead (codeNames t) (v :: rest) = .error (.de (.unknownProperty v))) ∧
    (∀ v, v ∉ reasonCodes t → Reason.fromU8 (codeNames t) v = .error (.unknownProperty v)) := by
  have tab : (codeNames t).map Reason.toU8 = reasonCodes t := by cases t <;> rfl
  have nd : ((codeNames t).map Reason.toU8).Nodup := by rw [tab]; cases t <;> decide
  have acc : ∀ v, (∃ r, Reason.fromU8 (codeNames t) v = .ok r) ↔ v ∈ reasonCodes t := by
    intro v
    rw [← tab]
    constructor
    · rintro ⟨r, h⟩
      obtain ⟨h1, rfl⟩ := Reason.fromU8_mem h
      exact List.mem_map_of_mem h1
    · intro h
      obtain ⟨r, h1, rfl⟩ := List.mem_map.1 h
      exact ⟨r, Reason.fromU8_toU8 nd h1⟩
  refine ⟨acc, ?_, ?_, ?_, ?_⟩
  · intro v rest r h
    rw [Reason.read_cons] at h
    cases hf : Reason.fromU8 (codeNames t) v with
    | error e => rw [hf] at h; cases h
    | ok r' =>
      rw [hf] at h
      cases h
      obtain ⟨h1, h2⟩ := Reason.fromU8_mem hf
      exact ⟨h1, by rw [Reason.write, h2], by rw [Reason.asyncWrite, h2]⟩
  · intro r hr rest
    refine ⟨r.toU8, ?_, rfl, Reason.read_toU8 nd hr rest, Reason.asyncRead_toU8 nd hr rest⟩
    rw [← tab]; exact List.mem_map_of_mem hr
  · intro v rest h
    rw [Reason.read_cons, Reason.asyncRead_cons, h]; exact ⟨rfl, rfl⟩
  · intro v hv
    cases hf : Reason.fromU8 (codeNames t) v with
    | ok r => exact absurd ((acc v).1 ⟨r, hf⟩) hv
    | error e =>
      unfold Reason.fromU8 at hf
      split at hf <;> cases hf
      rfl

example : Reason.fromU8 (codeNames .pubRec) 0x10 = .ok .noMatchingSubscribers ∧
    Reason.fromU8 (codeNames .pubRel) 0x10 = .error (.unknownProperty 0x10) := ⟨rfl, rfl⟩

/-- **C17.** Every combination of subscription options is written as the byte MQTT prescribes
(reserved bits clear) and read back by both readers; a byte whose QoS bits or retain handling bits
are 3 is rejected; every other byte is accepted. -/
theorem C17_subscription_options :
    (∀ o : SubOptions, o.toByte.toNat = subOptionsByte o ∧ o.toByte.toNat < 64 ∧
      ∀ rest, SubOptions.read (o.toByte :: rest) = .ok (o, rest) ∧
        SubOptions.asyncRead (o.toByte :: rest) = .ok ((o, 1), rest)) ∧
    (∀ v : UInt8, (∃ o, SubOptions.ofByte v = .ok o) ↔ v.toNat % 4 ≠ 3 ∧ v.toNat / 16 % 4 ≠ 3) ∧
    (∀ (v : UInt8) (o : SubOptions), SubOptions.ofByte v = .ok o →
      subOptionsByte o = v.toNat % 64) := by
  refine ⟨fun o => ⟨?_, ?_, fun rest => by simp⟩, ?_, ?_⟩
  · obtain ⟨rh, rap, nl, q⟩ := o
    cases rh <;> cases rap <;> cases nl <;> cases q <;> rfl
  · obtain ⟨rh, rap, nl, q⟩ := o
    cases rh <;> cases rap <;> cases nl <;> cases q <;> decide
  · intro v
    have := forall_u8 (P := fun v => (match SubOptions.ofByte v with | .ok _ => true | .error _ => false) = true ↔
      v.toNat % 4 ≠ 3 ∧ v.toNat / 16 % 4 ≠ 3) (by decide +kernel) v
    rw [← this]
    cases SubOptions.ofByte v <;> simp
  · intro v o h
    have := forall_u8 (P := fun v => (match SubOptions.ofByte v with
      | .ok o => decide (subOptionsByte o = v.toNat % 64) | .error _ => true) = true)
      (by decide +kernel) v
    rw [h] at this
    simpa using this

example : SubOptions.toByte ⟨.two, true, false, .atLeastOnce⟩ = 0x29 := by decide

end Mqrstt.Props
