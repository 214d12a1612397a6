import Verif.Proof.Rd
/-! # Lemmas about primitive values -/

namespace Mqrstt

theorem mkU16_bytes (n : UInt16) :
    mkU16 (UInt8.ofNat (n.toNat / 256)) (UInt8.ofNat (n.toNat % 256)) = n := by
  have h := n.toNat_lt
  apply UInt16.toNat_inj.1
  simp only [mkU16, UInt8.toNat_ofNat', UInt16.toNat_ofNat']
  omega

theorem mkU32_bytes (n : UInt32) :
    mkU32 (UInt8.ofNat (n.toNat / 16777216)) (UInt8.ofNat (n.toNat / 65536 % 256))
      (UInt8.ofNat (n.toNat / 256 % 256)) (UInt8.ofNat (n.toNat % 256)) = n := by
  have h := n.toNat_lt
  apply UInt32.toNat_inj.1
  simp only [mkU32, UInt8.toNat_ofNat', UInt32.toNat_ofNat']
  omega

@[simp] theorem u16Bytes_length (n : UInt16) : (u16Bytes n).length = 2 := rfl
@[simp] theorem u32Bytes_length (n : UInt32) : (u32Bytes n).length = 4 := rfl
@[simp] theorem boolBytes_length (b : Bool) : (boolBytes b).length = 1 := by cases b <;> rfl
@[simp] theorem binBytes_length (b : Bytes) : (binBytes b).length = b.length + 2 := by
  simp [binBytes]; omega
@[simp] theorem strBytes_length (s : Str) : (strBytes s).length = s.bytes.length + 2 := by
  simp [strBytes]

section
variable (rest : Bytes)

@[simp] theorem aU8_cons (x : UInt8) : aU8 (x :: rest) = .ok (x, rest) := rfl
@[simp] theorem getU8_cons (x : UInt8) : getU8 (x :: rest) = .ok (x, rest) := rfl

@[simp] theorem aU16_u16Bytes (n : UInt16) : aU16 (u16Bytes n ++ rest) = .ok (n, rest) := by
  simp only [u16Bytes, List.cons_append, List.nil_append, aU16, mkU16_bytes]

@[simp] theorem getU16_u16Bytes (n : UInt16) : getU16 (u16Bytes n ++ rest) = .ok (n, rest) := by
  simp only [u16Bytes, List.cons_append, List.nil_append, getU16, mkU16_bytes]

@[simp] theorem aU32_u32Bytes (n : UInt32) : aU32 (u32Bytes n ++ rest) = .ok (n, rest) := by
  simp only [u32Bytes, List.cons_append, List.nil_append, aU32, mkU32_bytes]

@[simp] theorem getU32_u32Bytes (n : UInt32) : getU32 (u32Bytes n ++ rest) = .ok (n, rest) := by
  simp only [u32Bytes, List.cons_append, List.nil_append, getU32, mkU32_bytes]

@[simp] theorem readU8_cons (x : UInt8) : readU8 (x :: rest) = .ok (x, rest) := by
  simp [readU8]

@[simp] theorem readU16_u16Bytes (n : UInt16) : readU16 (u16Bytes n ++ rest) = .ok (n, rest) := by
  simp [readU16]

@[simp] theorem readU32_u32Bytes (n : UInt32) : readU32 (u32Bytes n ++ rest) = .ok (n, rest) := by
  simp [readU32]

@[simp] theorem asyncReadU8_cons (x : UInt8) : asyncReadU8 (x :: rest) = .ok ((x, 1), rest) := by
  simp [asyncReadU8, Rd.bind_apply]

@[simp] theorem asyncReadU16_u16Bytes (n : UInt16) :
    asyncReadU16 (u16Bytes n ++ rest) = .ok ((n, 2), rest) := by
  simp [asyncReadU16, Rd.bind_apply]

@[simp] theorem asyncReadU32_u32Bytes (n : UInt32) :
    asyncReadU32 (u32Bytes n ++ rest) = .ok ((n, 4), rest) := by
  simp [asyncReadU32, Rd.bind_apply]

@[simp] theorem readBool_boolBytes (v : Bool) : readBool (boolBytes v ++ rest) = .ok (v, rest) := by
  cases v <;> simp [readBool, boolBytes, Rd.bind_apply]

@[simp] theorem asyncReadBool_boolBytes (v : Bool) :
    asyncReadBool (boolBytes v ++ rest) = .ok ((v, 1), rest) := by
  cases v <;> simp [asyncReadBool, boolBytes, Rd.bind_apply]

theorem splitTo_append (a : Bytes) : splitTo a.length (a ++ rest) = .ok (a, rest) := by
  simp [splitTo]

theorem aExact_append (a : Bytes) : aExact a.length (a ++ rest) = .ok (a, rest) := by
  simp [aExact]

theorem len16 {b : Bytes} (h : b.length ≤ 65535) : (UInt16.ofNat b.length).toNat = b.length := by
  simp only [UInt16.toNat_ofNat']; omega

theorem readBin_binBytes (v : Bytes) (h : v.length ≤ 65535) :
    readBin (binBytes v ++ rest) = .ok (v, rest) := by
  simp only [readBin, Rd.bufLen_bind, binBytes, List.append_assoc, List.length_append,
    u16Bytes_length, Rd.ite_apply]
  rw [if_neg (by omega), Rd.bind_ok (getU16_u16Bytes _ _)]
  simp only [Rd.bufLen_bind, len16 h, Rd.ite_apply, List.length_append]
  rw [if_neg (by omega), splitTo_append]

theorem asyncReadBin_binBytes (v : Bytes) (h : v.length ≤ 65535) :
    asyncReadBin (binBytes v ++ rest) = .ok ((v, v.length + 2), rest) := by
  simp only [asyncReadBin, binBytes, List.append_assoc]
  rw [Rd.bind_ok (aU16_u16Bytes _ _)]
  simp only [len16 h]
  rw [Rd.bind_ok (aExact_append _ _)]
  simp [Nat.add_comm]

theorem fromUtf8_valid (s : Str) : fromUtf8 s.bytes = pure s := by
  simp [fromUtf8, s.valid]

theorem readStr_strBytes (s : Str) (h : s.bytes.length ≤ 65535) :
    readStr (strBytes s ++ rest) = .ok (s, rest) := by
  simp only [readStr, strBytes]
  rw [Rd.bind_ok (readBin_binBytes _ _ h), fromUtf8_valid]; rfl

theorem asyncReadStr_strBytes (s : Str) (h : s.bytes.length ≤ 65535) :
    asyncReadStr (strBytes s ++ rest) = .ok ((s, s.bytes.length + 2), rest) := by
  simp only [asyncReadStr, strBytes]
  rw [Rd.bind_ok (asyncReadBin_binBytes _ _ h), fromUtf8_valid]; rfl

@[simp] theorem QoS.fromU8_toU8 (q : QoS) : QoS.fromU8 q.toU8 = .ok q := by cases q <;> rfl

@[simp] theorem readQoS_toU8 (q : QoS) : readQoS (q.toU8 :: rest) = .ok (q, rest) := by
  simp [readQoS, Rd.bind_apply]

@[simp] theorem asyncReadQoS_toU8 (q : QoS) : asyncReadQoS (q.toU8 :: rest) = .ok ((q, 1), rest) := by
  simp [asyncReadQoS, Rd.bind_apply]

@[simp] theorem PropertyType.fromU8_toU8 (p : PropertyType) :
    PropertyType.fromU8 p.toU8 = .ok p := by cases p <;> rfl

theorem PropertyType.toU8_fromU8 {v : UInt8} {p : PropertyType}
    (h : PropertyType.fromU8 v = .ok p) : p.toU8 = v := by
  have : ∀ y : Fin 256, ∀ p, PropertyType.fromU8 (UInt8.ofNat y.val) = .ok p →
      p.toU8 = UInt8.ofNat y.val := by
    intro y p
    revert y
    cases p <;> decide +kernel
  have h2 := this ⟨v.toNat, v.toNat_lt⟩ p
  simp only [UInt8.ofNat_toNat] at h2
  exact h2 h

@[simp] theorem PropertyType.read_toU8 (p : PropertyType) :
    PropertyType.read (p.toU8 :: rest) = .ok (p, rest) := by
  simp [PropertyType.read, Rd.bind_apply]

@[simp] theorem PropertyType.asyncRead_toU8 (p : PropertyType) :
    PropertyType.asyncRead (p.toU8 :: rest) = .ok ((p, 1), rest) := by
  simp [PropertyType.asyncRead, Rd.bind_apply]

end

end Mqrstt
