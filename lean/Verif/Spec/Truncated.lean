import Verif.Spec.PropSection
/-!
# CONNECT packets that break off within a number
-/

namespace Spec
open Mqrstt

/-- how many bytes a number takes -/
def numberWidth : Kind → Option Nat
  | .u8 => some 1 | .u16 => some 2 | .u32 => some 4
  | _ => none

/-- The property section at the start of `sec` ends within the value of a number: before it there are
properties of a CONNECT, each once unless it may be repeated; it is itself a property of a CONNECT
that has not occurred before. -/
def CutProperties (sec : Bytes) : Prop :=
  ∃ len good p cut more items w, sec = len ++ (good ++ propertyId p :: cut) ++ more ∧
    IsVbi len ∧ vbiValue len = (good ++ propertyId p :: cut).length ∧
    ItemsBytes items good ∧ AtMostOnce .connect items ∧
    (∀ i ∈ items, Section.connect ∈ carriers i.type ∧ i.type ≠ p) ∧
    Section.connect ∈ carriers p ∧ numberWidth p.kind = some w ∧ cut.length < w

/-- The bytes start with a whole CONNECT of MQTT 5 whose body ends within the keep alive time or whose
properties end within a number. The flags do not say QoS 3. -/
def CutConnect (b : Bytes) : Prop :=
  ∃ len flags tail rest, b = 0x10 :: (len ++ ([0, 4, 77, 81, 84, 84, 5, flags] ++ tail) ++ rest) ∧
    IsVbi len ∧ vbiValue len = 8 + tail.length ∧ flags.toNat / 8 % 4 ≠ 3 ∧
    (tail.length < 2 ∨ ∃ x y sec, tail = x :: y :: sec ∧ CutProperties sec)

end Spec
