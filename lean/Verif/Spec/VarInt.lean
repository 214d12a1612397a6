/-!
# Variable byte integers according to MQTT v5, section 1.5.5

Written without reference to the model: least significant group of seven bits first, the top bit of
each byte says whether another byte follows, at most four bytes.
-/

namespace Spec

/-- the largest value that fits in four groups of seven bits -/
def vbiMax : Nat := 268435455

/-- base-128 little-endian value of the low seven bits of each byte -/
def vbiValue : List UInt8 → Nat
  | [] => 0
  | b :: bs => b.toNat % 128 + 128 * vbiValue bs

/-- the continuation bit -/
def more (b : UInt8) : Prop := 128 ≤ b.toNat

/-- a complete variable byte integer: every byte but the last announces another one -/
def IsVbi (bs : List UInt8) : Prop :=
  ∃ init last, bs = init ++ [last] ∧ init.length < 4 ∧ (∀ b ∈ init, more b) ∧ ¬ more last

/-- the start of a variable byte integer whose end has not been seen -/
def IsOpen (bs : List UInt8) : Prop := ∀ b ∈ bs, more b

end Spec
