import Verif.Proof.Prim
/-! # What the readers of primitive values accept -/

namespace Mqrstt

/-! ## UTF-8 -/

theorem ofNat_toNat {a : UInt8} {n : Nat} (h : n = a.toNat) : UInt8.ofNat n = a := by
  subst h; simp

theorem validUtf8_encode (c : Char) (r : Bytes) : validUtf8 (String.utf8EncodeChar c ++ r) = validUtf8 r := by
  have hv := c.valid
  simp only [UInt32.isValidChar, Nat.isValidChar] at hv
  unfold String.utf8EncodeChar
  generalize c.val.toNat = n at hv
  have lt {x y : UInt8} : x < y ↔ x.toNat < y.toNat := UInt8.lt_iff_toNat_lt
  have le {x y : UInt8} : x ≤ y ↔ x.toNat ≤ y.toNat := UInt8.le_iff_toNat_le
  have eq {x y : UInt8} : x = y ↔ x.toNat = y.toNat := UInt8.toNat_inj.symm
  simp only
  split
  · rw [List.cons_append, List.nil_append, validUtf8.eq_def]
    simp only
    rw [if_pos]
    simp only [lt, UInt8.toNat_ofNat', UInt8.reduceToNat]; omega
  split
  · simp only [List.cons_append, List.nil_append]
    rw [validUtf8.eq_def]
    simp only
    rw [if_neg, if_pos, if_pos]
    all_goals simp only [lt, le, UInt8.toNat_ofNat', UInt8.reduceToNat]; omega
  split
  · simp only [List.cons_append, List.nil_append]
    rw [validUtf8.eq_def]
    simp only
    rw [if_neg, if_neg, if_pos, if_pos]
    all_goals simp only [lt, le, eq, UInt8.toNat_ofNat', UInt8.reduceToNat]
    · split <;> split <;> simp only [UInt8.reduceToNat] <;> omega
    all_goals omega
  · simp only [List.cons_append, List.nil_append]
    rw [validUtf8.eq_def]
    simp only
    rw [if_neg, if_neg, if_neg, if_pos, if_pos]
    all_goals simp only [lt, le, eq, UInt8.toNat_ofNat', UInt8.reduceToNat]
    · split <;> split <;> simp only [UInt8.reduceToNat] <;> omega
    all_goals omega

theorem validUtf8_of_chars (cs : List Char) : validUtf8 (cs.flatMap String.utf8EncodeChar) = true := by
  induction cs with
  | nil => rfl
  | cons c cs ih => rw [List.flatMap_cons, validUtf8_encode, ih]

/-- a character with this code -/
theorem exists_char {n : Nat} (h : n < 0xD800 ∨ (0xDFFF < n ∧ n < 0x110000)) : ∃ c : Char, c.val.toNat = n := by
  refine ⟨Char.ofNat n, ?_⟩
  have hv : n.isValidChar := h
  simp only [Char.ofNat, dif_pos hv, Char.ofNatAux]
  rfl

theorem of_ite_false {P : Prop} [Decidable P] {x : Bool} (h : (if P then x else false) = true) : P ∧ x = true := by
  split at h
  · exact ⟨‹_›, h⟩
  · simp at h

theorem chars_of_validUtf8 : ∀ (k : Nat) (b : Bytes), b.length ≤ k → validUtf8 b = true →
    ∃ cs : List Char, b = cs.flatMap String.utf8EncodeChar := by
  intro k
  have lt {x y : UInt8} : x < y ↔ x.toNat < y.toNat := UInt8.lt_iff_toNat_lt
  have le {x y : UInt8} : x ≤ y ↔ x.toNat ≤ y.toNat := UInt8.le_iff_toNat_le
  have eq {x y : UInt8} : x = y ↔ x.toNat = y.toNat := UInt8.toNat_inj.symm
  induction k with
  | zero => intro b hb _; exact ⟨[], by simpa using List.length_eq_zero_iff.1 (Nat.le_zero.1 hb)⟩
  | succ k ih =>
    intro b hb hv
    have step : ∀ (x r : Bytes) (n : Nat), b = x ++ r → x ≠ [] → validUtf8 r = true →
        (n < 0xD800 ∨ (0xDFFF < n ∧ n < 0x110000)) →
        (∀ c : Char, c.val.toNat = n → String.utf8EncodeChar c = x) →
        ∃ cs : List Char, b = cs.flatMap String.utf8EncodeChar := by
      intro x r n hx hne hr hn hc
      obtain ⟨c, hcn⟩ := exists_char hn
      have : 0 < x.length := List.length_pos_iff.2 hne
      obtain ⟨cs, hcs⟩ := ih r (by rw [hx, List.length_append] at hb; omega) hr
      exact ⟨c :: cs, by rw [List.flatMap_cons, hc c hcn, ← hcs, hx]⟩
    clear ih
    match b, hb, hv, step with
    | [], _, _, _ => exact ⟨[], rfl⟩
    | a :: r, hb, hv, step =>
      rw [validUtf8.eq_def] at hv
      simp only at hv
      have ha := a.toNat_lt
      split at hv
      · rename_i h
        simp only [lt, UInt8.reduceToNat] at h
        refine step [a] r a.toNat rfl (by simp) hv (by omega) ?_
        intro c hc
        simp only [String.utf8EncodeChar, hc]
        rw [if_pos (by omega)]
        simp
      · split at hv
        · simp at hv
        · rename_i h0 _ b' r'
          have hb' := b'.toNat_lt
          split at hv
          · rename_i h1
            obtain ⟨h2, hv⟩ := of_ite_false hv
            simp only [le, lt, UInt8.reduceToNat] at h0 h1 h2
            obtain ⟨n, hn⟩ : ∃ n, n = (a.toNat - 0xC0) * 64 + (b'.toNat - 0x80) := ⟨_, rfl⟩
            refine step [a, b'] r' n rfl (by simp) hv (by omega) ?_
            intro c hc
            simp only [String.utf8EncodeChar, hc]
            rw [if_neg (by omega), if_pos (by omega), ofNat_toNat (a := a) (by omega), ofNat_toNat (a := b') (by omega)]
          · split at hv
            · simp at hv
            · rename_i h1 _ c' r''
              have hc' := c'.toNat_lt
              split at hv
              · rename_i h2
                obtain ⟨⟨h3, h4, h5⟩, hv⟩ := of_ite_false hv
                have h3' : (a.toNat = 224 → 160 ≤ b'.toNat) ∧ 128 ≤ b'.toNat := by
                  simp only [le, eq] at h3
                  split at h3 <;> simp only [UInt8.reduceToNat] at * <;> omega
                have h4' : (a.toNat = 237 → b'.toNat ≤ 159) ∧ b'.toNat ≤ 191 := by
                  simp only [le, eq] at h4
                  split at h4 <;> simp only [UInt8.reduceToNat] at * <;> omega
                clear h3 h4
                simp only [le, lt, UInt8.reduceToNat] at h0 h1 h2 h5
                obtain ⟨n, hn⟩ : ∃ n, n = (a.toNat - 0xE0) * 4096 + (b'.toNat - 0x80) * 64 + (c'.toNat - 0x80) := ⟨_, rfl⟩
                refine step [a, b', c'] r'' n rfl (by simp) hv (by omega) ?_
                intro c hc
                simp only [String.utf8EncodeChar, hc]
                rw [if_neg (by omega), if_neg (by omega), if_pos (by omega), ofNat_toNat (a := a) (by omega),
                  ofNat_toNat (a := b') (by omega), ofNat_toNat (a := c') (by omega)]
              · split at hv
                · simp at hv
                · rename_i h2 _ d' r3
                  have hd' := d'.toNat_lt
                  split at hv
                  · rename_i h3
                    obtain ⟨⟨h4, h5, h6⟩, hv⟩ := of_ite_false hv
                    have h4' : (a.toNat = 240 → 144 ≤ b'.toNat) ∧ 128 ≤ b'.toNat := by
                      simp only [le, eq] at h4
                      split at h4 <;> simp only [UInt8.reduceToNat] at * <;> omega
                    have h5' : (a.toNat = 244 → b'.toNat ≤ 143) ∧ b'.toNat ≤ 191 := by
                      simp only [le, eq] at h5
                      split at h5 <;> simp only [UInt8.reduceToNat] at * <;> omega
                    clear h4 h5
                    simp only [le, lt, UInt8.reduceToNat] at h0 h1 h2 h3 h6
                    obtain ⟨n, hn⟩ : ∃ n, n = (a.toNat - 0xF0) * 262144 + (b'.toNat - 0x80) * 4096 +
                      (c'.toNat - 0x80) * 64 + (d'.toNat - 0x80) := ⟨_, rfl⟩
                    refine step [a, b', c', d'] r3 n rfl (by simp) hv (by omega) ?_
                    intro c hc
                    simp only [String.utf8EncodeChar, hc]
                    rw [if_neg (by omega), if_neg (by omega), if_neg (by omega), ofNat_toNat (a := a) (by omega),
                      ofNat_toNat (a := b') (by omega), ofNat_toNat (a := c') (by omega), ofNat_toNat (a := d') (by omega)]
                  · simp at hv

theorem validUtf8_iff (b : Bytes) : validUtf8 b = true ↔ ∃ cs : List Char, b = cs.flatMap String.utf8EncodeChar :=
  ⟨chars_of_validUtf8 _ b (Nat.le_refl _), fun ⟨cs, h⟩ => h ▸ validUtf8_of_chars cs⟩

/-! ## readers -/

theorem mkU16_split (x y : UInt8) : u16Bytes (mkU16 x y) = [x, y] := by
  have hx := x.toNat_lt
  have hy := y.toNat_lt
  simp only [u16Bytes, mkU16, UInt16.toNat_ofNat']
  rw [ofNat_toNat (a := x) (by omega), ofNat_toNat (a := y) (by omega)]

theorem mkU32_split (x y z w : UInt8) : u32Bytes (mkU32 x y z w) = [x, y, z, w] := by
  have hx := x.toNat_lt
  have hy := y.toNat_lt
  have hz := z.toNat_lt
  have hw := w.toNat_lt
  simp only [u32Bytes, mkU32, UInt32.toNat_ofNat']
  rw [ofNat_toNat (a := x) (by omega), ofNat_toNat (a := y) (by omega), ofNat_toNat (a := z) (by omega),
    ofNat_toNat (a := w) (by omega)]

theorem aU8_inv {bs rest : Bytes} {v : UInt8} (h : aU8 bs = .ok (v, rest)) : bs = v :: rest := by
  cases bs with
  | nil => simp [aU8] at h
  | cons x bs => simp only [aU8, Except.ok.injEq, Prod.mk.injEq] at h; rw [h.1, h.2]

theorem aU16_inv {bs rest : Bytes} {v : UInt16} (h : aU16 bs = .ok (v, rest)) : bs = u16Bytes v ++ rest := by
  match bs, h with
  | [], h => simp [aU16] at h
  | [_], h => simp [aU16] at h
  | x :: y :: bs, h =>
    simp only [aU16, Except.ok.injEq, Prod.mk.injEq] at h
    rw [← h.1, ← h.2, mkU16_split]; rfl

theorem aU32_inv {bs rest : Bytes} {v : UInt32} (h : aU32 bs = .ok (v, rest)) : bs = u32Bytes v ++ rest := by
  match bs, h with
  | [], h => simp [aU32] at h
  | [_], h => simp [aU32] at h
  | [_, _], h => simp [aU32] at h
  | [_, _, _], h => simp [aU32] at h
  | x :: y :: z :: w :: bs, h =>
    simp only [aU32, Except.ok.injEq, Prod.mk.injEq] at h
    rw [← h.1, ← h.2, mkU32_split]; rfl

theorem readU8_eq (bs : Bytes) (v : UInt8) (rest : Bytes) : readU8 bs = .ok (v, rest) ↔ aU8 bs = .ok (v, rest) := by
  cases bs <;> simp [readU8, aU8, Rd.bind_apply, bufLen, Rd.de, Rd.fail]

theorem readU16_eq (bs : Bytes) (v : UInt16) (rest : Bytes) : readU16 bs = .ok (v, rest) ↔ aU16 bs = .ok (v, rest) := by
  match bs with
  | [] => simp [readU16, aU16, Rd.bind_apply, bufLen, Rd.de, Rd.fail]
  | [_] => simp [readU16, aU16, Rd.bind_apply, bufLen, Rd.de, Rd.fail]
  | x :: y :: bs =>
    have : ¬ bs.length + 1 + 1 < 2 := by omega
    simp [readU16, aU16, getU16, Rd.bind_apply, bufLen, this]

theorem readU32_eq (bs : Bytes) (v : UInt32) (rest : Bytes) : readU32 bs = .ok (v, rest) ↔ aU32 bs = .ok (v, rest) := by
  match bs with
  | [] => simp [readU32, aU32, Rd.bind_apply, bufLen, Rd.de, Rd.fail]
  | [_] => simp [readU32, aU32, Rd.bind_apply, bufLen, Rd.de, Rd.fail]
  | [_, _] => simp [readU32, aU32, Rd.bind_apply, bufLen, Rd.de, Rd.fail]
  | [_, _, _] => simp [readU32, aU32, Rd.bind_apply, bufLen, Rd.de, Rd.fail]
  | x :: y :: z :: w :: bs =>
    have : ¬ bs.length + 1 + 1 + 1 + 1 < 4 := by omega
    simp [readU32, aU32, getU32, Rd.bind_apply, bufLen, this]

theorem readBin_inv {bs rest v : Bytes} (h : readBin bs = .ok (v, rest)) :
    bs = u16Bytes (UInt16.ofNat v.length) ++ (v ++ rest) ∧ v.length ≤ 65535 := by
  match bs, h with
  | [], h => simp [readBin, Rd.bind_apply, bufLen, Rd.de, Rd.fail] at h
  | [_], h => simp [readBin, Rd.bind_apply, bufLen, Rd.de, Rd.fail] at h
  | x :: y :: bs, h =>
    simp only [readBin, Rd.bind_apply, bufLen, List.length_cons] at h
    rw [if_neg (by omega)] at h
    rw [Rd.bind_apply] at h
    simp only [getU16, Rd.bind_apply, bufLen] at h
    split at h
    · simp [Rd.de, Rd.fail] at h
    · rename_i hlen
      unfold splitTo at h
      have hlen : (mkU16 x y).toNat ≤ bs.length := Nat.le_of_not_lt hlen
      rw [if_pos hlen] at h
      simp only [Except.ok.injEq, Prod.mk.injEq] at h
      have hl : v.length = (mkU16 x y).toNat := by rw [← h.1, List.length_take]; omega
      have := (mkU16 x y).toNat_lt
      refine ⟨?_, by omega⟩
      rw [hl, UInt16.ofNat_toNat, mkU16_split, ← h.1, ← h.2, List.take_append_drop]
      rfl

theorem asyncReadBin_inv {bs rest v : Bytes} {n : Nat} (h : asyncReadBin bs = .ok ((v, n), rest)) :
    bs = u16Bytes (UInt16.ofNat v.length) ++ (v ++ rest) ∧ v.length ≤ 65535 ∧ n = 2 + v.length := by
  simp only [asyncReadBin, Rd.bind_apply] at h
  cases hu : aU16 bs with
  | error e => simp [hu] at h
  | ok r =>
    obtain ⟨l, bs'⟩ := r
    have hbs := aU16_inv hu
    simp only [hu, aExact] at h
    split at h
    · simp at h
    · rename_i e
      split at e
      · rename_i hlen
        simp only [Except.ok.injEq, Prod.mk.injEq] at e
        have h : (((_, _), _) : (Bytes × Nat) × Bytes) = ((v, n), rest) := Except.ok.inj h
        simp only [Prod.mk.injEq] at h
        have hl : v.length = l.toNat := by rw [← h.1.1, ← e.1, List.length_take]; omega
        have := l.toNat_lt
        refine ⟨?_, by omega, by omega⟩
        rw [hl, UInt16.ofNat_toNat, hbs, ← h.1.1, ← e.1, ← h.2, ← e.2, List.take_append_drop]
      · simp at e

theorem fromUtf8_inv {b : Bytes} {bs rest : Bytes} {s : Str} (h : fromUtf8 b bs = .ok (s, rest)) :
    s.bytes = b ∧ rest = bs := by
  simp only [fromUtf8] at h
  split at h
  · have h : ((_, _) : Str × Bytes) = (s, rest) := Except.ok.inj h
    simp only [Prod.mk.injEq] at h
    rw [← h.1]
    exact ⟨rfl, h.2.symm⟩
  · simp [Rd.de, Rd.fail] at h

theorem QoS.fromU8_inv {x : UInt8} {q : QoS} (h : QoS.fromU8 x = .ok q) : x = q.toU8 := by
  simp only [QoS.fromU8] at h
  split at h
  · cases h; assumption
  split at h
  · cases h; assumption
  split at h
  · cases h; assumption
  · simp at h

end Mqrstt
