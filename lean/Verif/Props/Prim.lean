import Verif.Proof.Strict
/-!
# C04, C05: primitive values
-/

namespace Mqrstt.Props
open Mqrstt

/-- `w` is read back by the buffered reader `r` and the streaming reader `ar` as `v`: with any
bytes following, exactly the bytes of `w` are consumed, and the streaming reader reports how many. -/
def ReadsBack {α : Type} (r : Rd α) (ar : Rd (α × Nat)) (w : Bytes) (v : α) : Prop :=
  ∀ rest, r (w ++ rest) = .ok (v, rest) ∧ ar (w ++ rest) = .ok ((v, w.length), rest)

/-- **C04.** Integers, booleans, QoS values, strings and binary values of at most 65,535 bytes
round-trip through both readers. (Big-endian order of the integers is part of the statement.) -/
theorem C04_primitive_round_trip :
    (∀ v : UInt8, ReadsBack readU8 asyncReadU8 [v] v) ∧
    (∀ v : UInt16, ReadsBack readU16 asyncReadU16 (u16Bytes v) v ∧
      ∃ hi lo : UInt8, u16Bytes v = [hi, lo] ∧ hi.toNat * 256 + lo.toNat = v.toNat) ∧
    (∀ v : UInt32, ReadsBack readU32 asyncReadU32 (u32Bytes v) v ∧
      ∃ a b c d : UInt8, u32Bytes v = [a, b, c, d] ∧
        ((a.toNat * 256 + b.toNat) * 256 + c.toNat) * 256 + d.toNat = v.toNat) ∧
    (∀ v : Bool, ReadsBack readBool asyncReadBool (boolBytes v) v) ∧
    (∀ v : QoS, ReadsBack readQoS asyncReadQoS [v.toU8] v) ∧
    (∀ v : Str, v.bytes.length ≤ 65535 → ReadsBack readStr asyncReadStr (strBytes v) v) ∧
    (∀ v : Bytes, v.length ≤ 65535 → ReadsBack readBin asyncReadBin (binBytes v) v) := by
  refine ⟨fun v rest => ?_, fun v => ⟨fun rest => ?_, ?_⟩, fun v => ⟨fun rest => ?_, ?_⟩,
    fun v rest => ?_, fun v rest => ?_, fun v h rest => ?_, fun v h rest => ?_⟩
  · simp
  · simp
  · refine ⟨_, _, rfl, ?_⟩
    have := v.toNat_lt
    simp only [UInt8.toNat_ofNat']; omega
  · simp
  · refine ⟨_, _, _, _, rfl, ?_⟩
    have := v.toNat_lt
    simp only [UInt8.toNat_ofNat']; omega
  · simp
  · simp
  · exact ⟨readStr_strBytes _ _ h, by rw [asyncReadStr_strBytes _ _ h]; simp⟩
  · exact ⟨readBin_binBytes _ _ h, by rw [asyncReadBin_binBytes _ _ h]; simp⟩

example : ReadsBack readStr asyncReadStr (strBytes ⟨[0xC3, 0xA9], by decide⟩)
    ⟨[0xC3, 0xA9], by decide⟩ :=
  C04_primitive_round_trip.2.2.2.2.2.1 (⟨[0xC3, 0xA9], by decide⟩ : Str) (by decide)

/-- Whatever `r` and `ar` accept is what is written for the value they return; the streaming reader reports its
length. -/
def AcceptsOnly {α : Type} (r : Rd α) (ar : Rd (α × Nat)) (w : α → Bytes) : Prop :=
  ∀ bs v rest, (r bs = .ok (v, rest) → bs = w v ++ rest) ∧
    ∀ n, ar bs = .ok ((v, n), rest) → bs = w v ++ rest ∧ n = (w v).length

/-- **C04.** Nothing else is accepted: in particular no boolean other than 0 and 1, no QoS above 2, no value shorter
than its announced length. -/
theorem C04_nothing_else_accepted :
    AcceptsOnly readU8 asyncReadU8 (fun v => [v]) ∧
    AcceptsOnly readU16 asyncReadU16 u16Bytes ∧
    AcceptsOnly readU32 asyncReadU32 u32Bytes ∧
    AcceptsOnly readBool asyncReadBool (fun v => if v then [1] else [0]) ∧
    AcceptsOnly readQoS asyncReadQoS (fun v => [v.toU8]) ∧
    AcceptsOnly readStr asyncReadStr strBytes ∧
    AcceptsOnly readBin asyncReadBin binBytes := by
  have bool : ∀ {x : UInt8} {bs rest : Bytes} {v : Bool},
      (if x = 0 then pure false else if x = 1 then pure true else Rd.de .malformedPacket : Rd Bool) bs = .ok (v, rest) →
      x :: bs = (if v then [1] else [0]) ++ rest := by
    intro x bs rest v h
    split at h
    · have h : ((_, _) : Bool × Bytes) = _ := Except.ok.inj h
      simp only [Prod.mk.injEq] at h
      subst x
      rw [← h.1, h.2]; rfl
    · split at h
      · have h : ((_, _) : Bool × Bytes) = _ := Except.ok.inj h
        simp only [Prod.mk.injEq] at h
        subst x
        rw [← h.1, h.2]; rfl
      · simp [Rd.de, Rd.fail] at h
  refine ⟨fun bs v rest => ⟨fun h => ?_, fun n h => ?_⟩, fun bs v rest => ⟨fun h => ?_, fun n h => ?_⟩,
    fun bs v rest => ⟨fun h => ?_, fun n h => ?_⟩, fun bs v rest => ⟨fun h => ?_, fun n h => ?_⟩,
    fun bs v rest => ⟨fun h => ?_, fun n h => ?_⟩, fun bs v rest => ⟨fun h => ?_, fun n h => ?_⟩,
    fun bs v rest => ⟨fun h => ?_, fun n h => ?_⟩⟩
  · exact aU8_inv ((readU8_eq _ _ _).1 h)
  · simp only [asyncReadU8, Rd.bind_apply] at h
    split at h
    · simp at h
    · rename_i e
      have h : ((_, _) : (UInt8 × Nat) × Bytes) = _ := Except.ok.inj h
      simp only [Prod.mk.injEq] at h
      obtain ⟨⟨rfl, rfl⟩, rfl⟩ := h
      exact ⟨aU8_inv e, rfl⟩
  · exact aU16_inv ((readU16_eq _ _ _).1 h)
  · simp only [asyncReadU16, Rd.bind_apply] at h
    split at h
    · simp at h
    · rename_i e
      have h : ((_, _) : (UInt16 × Nat) × Bytes) = _ := Except.ok.inj h
      simp only [Prod.mk.injEq] at h
      obtain ⟨⟨rfl, rfl⟩, rfl⟩ := h
      exact ⟨aU16_inv e, rfl⟩
  · exact aU32_inv ((readU32_eq _ _ _).1 h)
  · simp only [asyncReadU32, Rd.bind_apply] at h
    split at h
    · simp at h
    · rename_i e
      have h : ((_, _) : (UInt32 × Nat) × Bytes) = _ := Except.ok.inj h
      simp only [Prod.mk.injEq] at h
      obtain ⟨⟨rfl, rfl⟩, rfl⟩ := h
      exact ⟨aU32_inv e, rfl⟩
  · cases bs with
    | nil => simp [readBool, Rd.bind_apply, bufLen, Rd.de, Rd.fail] at h
    | cons x bs =>
      simp only [readBool, Rd.bind_apply, bufLen, List.length_cons, Nat.add_eq_zero_iff, Nat.one_ne_zero, and_false,
        if_false, getU8_cons] at h
      exact bool h
  · cases bs with
    | nil => simp [asyncReadBool, Rd.bind_apply, aU8] at h
    | cons x bs =>
      simp only [asyncReadBool, Rd.bind_apply, aU8_cons] at h
      split at h
      · have h : ((_, _) : (Bool × Nat) × Bytes) = _ := Except.ok.inj h
        simp only [Prod.mk.injEq] at h
        subst x
        rw [← h.1.1, h.2, ← h.1.2]
        exact ⟨rfl, rfl⟩
      · split at h
        · have h : ((_, _) : (Bool × Nat) × Bytes) = _ := Except.ok.inj h
          simp only [Prod.mk.injEq] at h
          subst x
          rw [← h.1.1, h.2, ← h.1.2]
          exact ⟨rfl, rfl⟩
        · simp [Rd.de, Rd.fail] at h
  · cases bs with
    | nil => simp [readQoS, Rd.bind_apply, bufLen, Rd.de, Rd.fail] at h
    | cons x bs =>
      simp only [readQoS, Rd.bind_apply, bufLen, List.length_cons, Nat.add_eq_zero_iff, Nat.one_ne_zero, and_false,
        if_false, getU8_cons] at h
      cases hq : QoS.fromU8 x with
      | error e => simp [hq, Rd.lift, Rd.de, Rd.fail] at h
      | ok q =>
        rw [hq] at h
        have h : ((_, _) : QoS × Bytes) = _ := Except.ok.inj h
        simp only [Prod.mk.injEq] at h
        rw [QoS.fromU8_inv hq, h.1, h.2]; rfl
  · cases bs with
    | nil => simp [asyncReadQoS, Rd.bind_apply, aU8] at h
    | cons x bs =>
      simp only [asyncReadQoS, Rd.bind_apply, aU8_cons] at h
      cases hq : QoS.fromU8 x with
      | error e => simp [hq, Rd.lift, Rd.de, Rd.fail] at h
      | ok q =>
        rw [hq] at h
        have h : ((_, _) : (QoS × Nat) × Bytes) = _ := Except.ok.inj h
        simp only [Prod.mk.injEq] at h
        rw [QoS.fromU8_inv hq, ← h.1.1, ← h.1.2, ← h.2]
        exact ⟨rfl, rfl⟩
  · simp only [readStr, Rd.bind_apply] at h
    split at h
    · simp at h
    · rename_i e
      obtain ⟨h1, rfl⟩ := fromUtf8_inv h
      obtain ⟨h2, -⟩ := readBin_inv e
      rw [h2, strBytes, binBytes, h1, List.append_assoc]
  · simp only [asyncReadStr, Rd.bind_apply] at h
    split at h
    · simp at h
    · rename_i c k e
      split at h
      · simp at h
      · rename_i e2
        have h : ((_, _) : (Str × Nat) × Bytes) = _ := Except.ok.inj h
        simp only [Prod.mk.injEq] at h
        obtain ⟨⟨rfl, rfl⟩, rfl⟩ := h
        obtain ⟨h1, rfl⟩ := fromUtf8_inv e2
        obtain ⟨h2, -, h3⟩ := asyncReadBin_inv e
        rw [h3, h2, strBytes, binBytes, h1, List.append_assoc, List.length_append, u16Bytes_length]
        exact ⟨rfl, rfl⟩
  · rw [(readBin_inv h).1, binBytes, List.append_assoc]
  · obtain ⟨h2, -, h3⟩ := asyncReadBin_inv h
    rw [h3, h2, binBytes, List.append_assoc, List.length_append, u16Bytes_length]
    exact ⟨rfl, rfl⟩

/-- the accepted inputs are not few: both readers accept a QoS and a string -/
example : readQoS [2, 9] = .ok (.exactlyOnce, [9]) ∧ (∃ s, asyncReadStr [0, 1, 0x61, 7] = .ok (s, [7])) :=
  ⟨rfl, _, rfl⟩

/-- **C04.** A byte string of at most 65,535 bytes is accepted as a string exactly if it is the UTF-8 encoding of some
sequence of Unicode characters (`Char` and its encoding are those of Lean's library). -/
theorem C04_text_is_unicode (b rest : Bytes) (hb : b.length ≤ 65535) :
    ((∃ s, readStr (binBytes b ++ rest) = .ok (s, rest)) ↔ ∃ cs : List Char, b = cs.flatMap String.utf8EncodeChar) ∧
    ((∃ s n, asyncReadStr (binBytes b ++ rest) = .ok ((s, n), rest)) ↔
      ∃ cs : List Char, b = cs.flatMap String.utf8EncodeChar) := by
  simp only [← validUtf8_iff]
  have e : ∀ s : Str, binBytes b ++ rest = strBytes s ++ rest → s.bytes = b := by
    intro s h
    have h := List.append_cancel_right h
    simp only [strBytes, binBytes, u16Bytes, List.cons_append, List.nil_append, List.cons.injEq] at h
    exact h.2.2.symm
  refine ⟨⟨fun ⟨s, h⟩ => ?_, fun h => ⟨⟨b, h⟩, readStr_strBytes _ ⟨b, h⟩ hb⟩⟩,
    ⟨fun ⟨s, n, h⟩ => ?_, fun h => ⟨⟨b, h⟩, _, asyncReadStr_strBytes _ ⟨b, h⟩ hb⟩⟩⟩
  · rw [← e s ((C04_nothing_else_accepted.2.2.2.2.2.1 _ _ _).1 h)]
    exact s.valid
  · rw [← e s ((C04_nothing_else_accepted.2.2.2.2.2.1 _ _ _).2 n h).1]
    exact s.valid

example : (∃ cs : List Char, [0xE2, 0x82, 0xAC] = cs.flatMap String.utf8EncodeChar) ∧
    ¬ ∃ cs : List Char, [0xED, 0xA0, 0x80] = cs.flatMap String.utf8EncodeChar := by
  simp only [← validUtf8_iff]
  decide

/-- the first two bytes, big endian, are the number of bytes that follow -/
def PrefixTrue (w : Bytes) : Prop :=
  ∃ hi lo body, w = hi :: lo :: body ∧ hi.toNat * 256 + lo.toNat = body.length

theorem prefixTrue_iff (v : Bytes) : PrefixTrue (binBytes v) ↔ v.length ≤ 65535 := by
  constructor
  · rintro ⟨hi, lo, body, e, h⟩
    have h1 := hi.toNat_lt
    have h2 := lo.toNat_lt
    simp only [binBytes, u16Bytes, List.cons_append, List.nil_append, List.cons.injEq] at e
    rw [e.2.2]; omega
  · intro h
    refine ⟨_, _, v, rfl, ?_⟩
    rw [len16 h]
    simp only [UInt8.toNat_ofNat']; omega

/-- **C05 (partial).** For values of at most 65,535 bytes the prefix is the true length. Missing:
longer values, for which the claim is false, see `C05_length_prefix_violated`. -/
theorem C05_length_prefix_partial :
    (∀ v : Bytes, v.length ≤ 65535 → PrefixTrue (binBytes v)) ∧
    (∀ v : Str, v.bytes.length ≤ 65535 → PrefixTrue (strBytes v)) :=
  ⟨fun v h => (prefixTrue_iff v).2 h, fun v h => (prefixTrue_iff v.bytes).2 h⟩

example : PrefixTrue (binBytes [1, 2, 3]) := C05_length_prefix_partial.1 _ (by decide)

/-- **C05 is violated.** Every value longer than 65,535 bytes is written, without an error, with a
prefix that is not its length (the length is truncated to 16 bits); such values exist. -/
theorem C05_length_prefix_violated :
    (∀ v : Bytes, 65535 < v.length → ¬ PrefixTrue (binBytes v)) ∧
    (∃ v : Str, v.bytes.length = 65536 ∧
      (∃ body, strBytes v = 0 :: 0 :: body) ∧ ¬ PrefixTrue (strBytes v)) := by
  refine ⟨fun v h => by rw [prefixTrue_iff]; omega, ?_⟩
  have hv : ∀ n, validUtf8 (List.replicate n 0x61) = true := by
    intro n
    induction n with
    | zero => rfl
    | succ n ih => rw [List.replicate_succ, validUtf8.eq_def]; simpa using ih
  refine ⟨⟨List.replicate 65536 0x61, hv _⟩, ?_, ?_, ?_⟩
  · exact List.length_replicate
  · refine ⟨List.replicate 65536 0x61, ?_⟩
    simp only [strBytes, binBytes, List.length_replicate]; rfl
  · rw [strBytes, prefixTrue_iff, List.length_replicate]; omega

end Mqrstt.Props
