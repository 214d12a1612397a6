import Verif.Spec.Display
/-!
# Lemmas about the text of packets
-/

namespace Mqrstt
open Mqrstt.Spec

theorem display_withoutContent (p : Packet) : p.display = (withoutContent p).display := by cases p <;> rfl

theorem escape_plain {s : Str} (h : Plain s) : s.bytes.flatMap escapeByte = s.bytes := by
  have : ∀ bs : Bytes, (∀ b ∈ bs, 32 ≤ b ∧ b < 127 ∧ b ≠ 34 ∧ b ≠ 92) → bs.flatMap escapeByte = bs := by
    intro bs
    induction bs with
    | nil => intro _; rfl
    | cons b bs ih =>
      intro h
      obtain ⟨h1, h2, h3, h4⟩ := h b (by simp)
      have e : escapeByte b = [b] := by
        have h1 := UInt8.le_iff_toNat_le.1 h1
        have h2 := UInt8.lt_iff_toNat_lt.1 h2
        simp at h1 h2
        have hb : b.toNat < 32 → False := by omega
        unfold escapeByte
        have n0 : b ≠ 0 := by rintro rfl; exact hb (by decide)
        have n1 : b ≠ 9 := by rintro rfl; exact hb (by decide)
        have n2 : b ≠ 10 := by rintro rfl; exact hb (by decide)
        have n3 : b ≠ 13 := by rintro rfl; exact hb (by decide)
        have n4 : ¬(b < 32 ∨ b = 127) := by
          rintro (h | rfl)
          · exact hb (UInt8.lt_iff_toNat_lt.1 h)
          · simp at h2
        rw [if_neg n0, if_neg n1, if_neg n2, if_neg n3, if_neg h3, if_neg h4, if_neg n4]
      rw [List.flatMap_cons, e, ih fun b hb => h b (by simp [hb])]
      rfl
  exact this _ h

theorem oneLine_append {a b : Bytes} (ha : OneLine a) (hb : OneLine b) : OneLine (a ++ b) := by
  simp only [OneLine, List.mem_append] at *
  exact ⟨fun h => h.elim ha.1 hb.1, fun h => h.elim ha.2 hb.2⟩

theorem digits_oneLine (n : Nat) : OneLine (decimal n) := by
  have key : ∀ b ∈ decimal n, 48 ≤ b.toNat := by
    intro b hb
    simp only [decimal, List.mem_map] at hb
    obtain ⟨c, hc, rfl⟩ := hb
    have hd := Nat.isDigit_of_mem_toDigits (by decide) (by decide) hc
    simp only [Char.isDigit, ge_iff_le, Bool.and_eq_true, decide_eq_true_eq] at hd
    have h1 : 48 ≤ c.toNat := hd.1
    have h2 : c.toNat ≤ 57 := hd.2
    simp
    omega
  exact ⟨fun h => absurd (key _ h) (by decide), fun h => absurd (key _ h) (by decide)⟩

instance (bs : Bytes) : Decidable (OneLine bs) := inferInstanceAs (Decidable (_ ∧ _))

theorem bool_oneLine (b : Bool) : OneLine (boolText b) := by cases b <;> decide
theorem reason_oneLine (r : Reason) : OneLine (text r.name) := by cases r <;> decide
theorem qos_oneLine (q : QoS) : OneLine (text q.name) := by cases q <;> decide

theorem escape_oneLine (b : UInt8) : OneLine (escapeByte b) := by
  have small : ∀ n < 32, OneLine (escapeByte (UInt8.ofNat n)) := by decide
  by_cases h : b.toNat < 32
  · simpa using small b.toNat h
  · by_cases h1 : b = 34
    · subst h1; decide
    by_cases h2 : b = 92
    · subst h2; decide
    by_cases h3 : b = 127
    · subst h3; decide
    have n0 : b ≠ 0 := by rintro rfl; exact h (by decide)
    have n1 : b ≠ 9 := by rintro rfl; exact h (by decide)
    have n2 : b ≠ 10 := by rintro rfl; exact h (by decide)
    have n3 : b ≠ 13 := by rintro rfl; exact h (by decide)
    have n4 : ¬(b < 32 ∨ b = 127) := by
      rintro (h' | h')
      · exact h (UInt8.lt_iff_toNat_lt.1 h')
      · exact h3 h'
    unfold escapeByte
    rw [if_neg n0, if_neg n1, if_neg n2, if_neg n3, if_neg h1, if_neg h2, if_neg n4]
    exact ⟨by simpa using n2.symm, by simpa using n3.symm⟩

theorem debugStr_oneLine (s : Str) : OneLine (debugStr s) := by
  refine oneLine_append (oneLine_append (by decide) ?_) (by decide)
  constructor <;> intro h <;> obtain ⟨b, -, h⟩ := List.mem_flatMap.1 h
  · exact (escape_oneLine b).1 h
  · exact (escape_oneLine b).2 h

theorem debugOpt_oneLine {α : Type} {f : α → Bytes} (h : ∀ a, OneLine (f a)) (o : Option α) : OneLine (debugOpt f o) := by
  cases o with
  | none => exact (by decide : OneLine (text "None"))
  | some a => exact oneLine_append (oneLine_append (by decide) (h a)) (by decide)

end Mqrstt
