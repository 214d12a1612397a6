import Verif.Model.Basic
/-!
# "ping" in a text (C80)
-/

namespace Mqrstt.Spec

/-- the four letters one after the other, each in upper or lower case -/
def SaysPing (text : Bytes) : Prop :=
  ∃ before p i n g after, text = before ++ [p, i, n, g] ++ after ∧
    (p = 0x70 ∨ p = 0x50) ∧ (i = 0x69 ∨ i = 0x49) ∧ (n = 0x6E ∨ n = 0x4E) ∧ (g = 0x67 ∨ g = 0x47)

/-- a cut after ten bytes goes through a character: the eleventh byte is not the first of one -/
def SplitsCharacter (text : Bytes) : Prop := ∃ x, text[10]? = some x ∧ 0x80 ≤ x ∧ x ≤ 0xBF

end Mqrstt.Spec
