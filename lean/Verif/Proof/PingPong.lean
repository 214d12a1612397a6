import Verif.Model.Handlers
import Verif.Spec.PingPong
/-! Lemmas for C80. -/

namespace Mqrstt
open Mqrstt.Spec

/-- one letter -/
def lowerByte (b : UInt8) : UInt8 := if 0x41 ≤ b ∧ b ≤ 0x5A then b + 0x20 else b

theorem lowercase_cons {b : UInt8} {r : Bytes} (h : b ≠ 0xC4) : lowercase (b :: r) = lowerByte b :: lowercase r := by
  rw [lowercase.eq_def]
  split
  · rename_i e; simp only [List.cons.injEq] at e; exact absurd e.1 h
  · rename_i e; simp only [List.cons.injEq] at e; rw [e.1, e.2]; rfl
  · rename_i e; cases e

/-- the first letter of what is written in small letters -/
theorem lowercase_first {b : Bytes} {x : UInt8} {t : Bytes} (h : lowercase b = x :: t) (hx : x ≠ 0x69 ∨ t.head? ≠ some 0xCC) :
    ∃ y r, b = y :: r ∧ t = lowercase r ∧ x = lowerByte y := by
  rw [lowercase.eq_def] at h
  split at h
  · simp only [List.cons.injEq] at h
    obtain ⟨rfl, rfl⟩ := h
    rcases hx with hx | hx
    · exact absurd rfl hx
    · exact absurd rfl hx
  · simp only [List.cons.injEq] at h
    exact ⟨_, _, rfl, h.2.symm, h.1.symm⟩
  · cases h

theorem lowerByte_letter : ∀ y : UInt8,
    (lowerByte y = 0x70 ↔ y = 0x70 ∨ y = 0x50) ∧ (lowerByte y = 0x69 ↔ y = 0x69 ∨ y = 0x49) ∧
    (lowerByte y = 0x6E ↔ y = 0x6E ∨ y = 0x4E) ∧ (lowerByte y = 0x67 ↔ y = 0x67 ∨ y = 0x47) := by
  intro y
  have up : lowerByte y = if 0x41 ≤ y.toNat ∧ y.toNat ≤ 0x5A then y + 0x20 else y := by
    simp [lowerByte, UInt8.le_iff_toNat_le]
  simp only [up, ← UInt8.toNat_inj]
  have := y.toNat_lt
  split
  · rw [UInt8.toNat_add]
    simp only [UInt8.reduceToNat]
    omega
  · simp only [UInt8.reduceToNat]
    omega

/-- a text that starts with the four letters -/
def StartsPing (b : Bytes) : Prop :=
  ∃ p i n g after, b = p :: i :: n :: g :: after ∧
    (p = 0x70 ∨ p = 0x50) ∧ (i = 0x69 ∨ i = 0x49) ∧ (n = 0x6E ∨ n = 0x4E) ∧ (g = 0x67 ∨ g = 0x47)

theorem startsPing_iff (b : Bytes) : (lowercase b).take 4 = [0x70, 0x69, 0x6E, 0x67] ↔ StartsPing b := by
  constructor
  · intro h
    obtain ⟨t, ht⟩ : ∃ t, lowercase b = 0x70 :: 0x69 :: 0x6E :: 0x67 :: t :=
      ⟨(lowercase b).drop 4, by
        have := List.take_append_drop 4 (lowercase b)
        rw [h] at this
        exact this.symm⟩
    obtain ⟨p, b1, rfl, h1, e1⟩ := lowercase_first ht (.inl (by decide))
    obtain ⟨i, b2, rfl, h2, e2⟩ := lowercase_first h1.symm (.inr (by simp))
    obtain ⟨n, b3, rfl, h3, e3⟩ := lowercase_first h2.symm (.inl (by decide))
    obtain ⟨g, b4, rfl, h4, e4⟩ := lowercase_first h3.symm (.inl (by decide))
    exact ⟨p, i, n, g, b4, rfl, (lowerByte_letter p).1.1 e1.symm, (lowerByte_letter i).2.1.1 e2.symm,
      (lowerByte_letter n).2.2.1.1 e3.symm, (lowerByte_letter g).2.2.2.1 e4.symm⟩
  · rintro ⟨p, i, n, g, after, rfl, hp, hi, hn, hg⟩
    have ne : ∀ x : UInt8, x = 0xC4 → ¬ (x = 0x70 ∨ x = 0x50) ∧ ¬ (x = 0x69 ∨ x = 0x49) ∧ ¬ (x = 0x6E ∨ x = 0x4E) ∧
        ¬ (x = 0x67 ∨ x = 0x47) := by rintro x rfl; decide
    rw [lowercase_cons fun h => (ne _ h).1 hp, lowercase_cons fun h => (ne _ h).2.1 hi,
      lowercase_cons fun h => (ne _ h).2.2.1 hn, lowercase_cons fun h => (ne _ h).2.2.2 hg,
      (lowerByte_letter p).1.2 hp, (lowerByte_letter i).2.1.2 hi, (lowerByte_letter n).2.2.1.2 hn,
      (lowerByte_letter g).2.2.2.2 hg]
    rfl

theorem saysPing_cons (b : UInt8) (r : Bytes) : SaysPing (b :: r) ↔ StartsPing (b :: r) ∨ SaysPing r := by
  constructor
  · rintro ⟨pre, p, i, n, g, post, e, h⟩
    cases pre with
    | nil => exact .inl ⟨p, i, n, g, post, by simpa using e, h⟩
    | cons x pre =>
      simp only [List.cons_append, List.cons.injEq] at e
      exact .inr ⟨pre, p, i, n, g, post, e.2, h⟩
  · rintro (⟨p, i, n, g, post, e, h⟩ | ⟨pre, p, i, n, g, post, rfl, h⟩)
    · exact ⟨[], p, i, n, g, post, by simpa using e, h⟩
    · exact ⟨b :: pre, p, i, n, g, post, by simp, h⟩

theorem containsPing_cons {b : UInt8} {r : Bytes} :
    containsPing (b :: r) = true ↔ (b :: r).take 4 = [0x70, 0x69, 0x6E, 0x67] ∨ containsPing r = true := by
  simp [containsPing]

theorem containsPing_lowercase (b : Bytes) : containsPing (lowercase b) = true ↔ SaysPing b := by
  fun_induction lowercase b with
  | case1 r ih =>
    have h1 : containsPing (0x69 :: 0xCC :: 0x87 :: lowercase r) = containsPing (lowercase r) := by simp [containsPing]
    have h2 : SaysPing (0xC4 :: 0xB0 :: r) ↔ SaysPing r := by
      rw [saysPing_cons, saysPing_cons]
      constructor
      · rintro (⟨p, i, n, g, post, e, h, -⟩ | ⟨p, i, n, g, post, e, h, -⟩ | h)
        · simp only [List.cons.injEq] at e; rw [← e.1] at h; exact absurd h (by decide)
        · simp only [List.cons.injEq] at e; rw [← e.1] at h; exact absurd h (by decide)
        · exact h
      · exact fun h => .inr (.inr h)
    rw [h1, h2, ih]
  | case2 b r hb ih =>
    have e : lowercase (b :: r) = (if 0x41 ≤ b ∧ b ≤ 0x5A then b + 0x20 else b) :: lowercase r := by
      rw [lowercase.eq_def]
      split
      · rename_i e; simp only [List.cons.injEq] at e; exact absurd e.2 (hb _ e.1)
      · rename_i e; simp only [List.cons.injEq] at e; rw [e.1, e.2]
      · rename_i e; cases e
    rw [saysPing_cons, ← startsPing_iff, e, containsPing_cons, ih]
  | case3 => 
    constructor
    · intro h; cases h
    · rintro ⟨pre, p, i, n, g, post, e, -⟩
      have := congrArg List.length e
      simp at this

theorem isBoundary_iff (b : Bytes) : isBoundary b (min b.length 10) = false ↔ SplitsCharacter b := by
  unfold isBoundary SplitsCharacter
  by_cases h : b.length ≤ 10
  · rw [Nat.min_eq_left h]
    simp
    intro x hx
    have : 10 < b.length := by
      rw [List.getElem?_eq_some_iff] at hx
      exact hx.1
    omega
  · rw [Nat.min_eq_right (by omega)]
    cases e : b[10]? with
    | none => simp
    | some x => simp

end Mqrstt
