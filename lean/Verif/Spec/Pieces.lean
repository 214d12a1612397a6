import Verif.Spec.Panic
/-!
# In which pieces an answer makes smol's `connect` panic (C117)
-/

namespace Mqrstt.Spec

/-- the bytes start with a fixed header of `hl` bytes that announces `rem` bytes -/
def Begins (b : Bytes) (hl rem : Nat) : Prop :=
  ∃ t first len body, b = first :: (len ++ body) ∧ _root_.Spec.FirstByteAllowed t first ∧ _root_.Spec.IsVbi len ∧
    hl = 1 + len.length ∧ rem = _root_.Spec.vbiValue len

/-- at least one piece, none empty, and no more pieces than are needed for `need` bytes -/
structure Enough (need : Nat) (pieces : List Bytes) : Prop where
  some : pieces ≠ []
  nonempty : ∀ x ∈ pieces, x ≠ []
  enough : need ≤ pieces.flatten.length
  notMore : pieces.dropLast = [] ∨ pieces.dropLast.flatten.length < need

/-- how many bytes `connect` waits for when it has `n` bytes of a packet that announces `rem`: the bytes of the header are counted
as if they belonged to the announced ones, and a difference below zero wraps around -/
def awaited (n rem : Nat) : Nat := if n ≤ rem then rem - n else 2 ^ 64 + rem - n

/-- These pieces of an answer make `connect` panic. Once the fixed header is there (`early`, with no more pieces than needed), with
overflow checks the packet is so nearly whole that the difference is below zero, or it is a CONNECT cut short; or it is incomplete,
and with the pieces then awaited (`more`) it is still incomplete, or a CONNECT cut short. -/
def AnswerPanics (checks : Bool) (pieces : List Bytes) : Prop :=
  ∃ early late hl rem, pieces = early ++ late ∧ (∀ x ∈ early, x ≠ []) ∧ Begins early.flatten hl rem ∧
    early.dropLast.flatten.length < hl ∧
    ((checks = true ∧ NearlyWhole early.flatten) ∨ _root_.Spec.CutConnect early.flatten ∨
      early.flatten.length < hl + rem ∧ ∃ more tail, late = more ++ tail ∧ Enough (awaited early.flatten.length rem) more ∧
        (early.flatten.length + more.flatten.length < hl + rem ∨ _root_.Spec.CutConnect (early.flatten ++ more.flatten)))

end Mqrstt.Spec
