import Verif.Model.Display
/-!
# What the text of a packet may show
-/

namespace Mqrstt.Spec

/-- the packet without the contents that are the users' own: payload, properties (user properties, authentication data,
correlation data, ...), last will, topic filters -/
def withoutContent : Packet → Packet
  | .connect c => .connect { c with lastWill := none, props := .empty }
  | .connAck c => .connAck { c with props := .empty }
  | .publish m => .publish { m with props := .empty, payload := [] }
  | .pubAck a => .pubAck { a with props := .empty }
  | .pubRec a => .pubRec { a with props := .empty }
  | .pubRel a => .pubRel { a with props := .empty }
  | .pubComp a => .pubComp { a with props := .empty }
  | .subscribe s => .subscribe { s with props := .empty, topics := [] }
  | .subAck a => .subAck { a with props := .empty }
  | .unsubscribe s => .unsubscribe { s with props := .empty, topics := [] }
  | .unsubAck a => .unsubAck { a with props := .empty }
  | .pingReq => .pingReq
  | .pingResp => .pingResp
  | .disconnect d => .disconnect { d with props := .empty }
  | .auth d => .auth { d with props := .empty }

/-- the packet without these and without the password; whether there is one may be seen -/
def withoutSecrets (p : Packet) : Packet :=
  match withoutContent p with
  | .connect c => .connect { c with password := c.password.map fun _ => .empty }
  | p => p

/-- printable ASCII other than `"` and `\` -/
def Plain (s : Str) : Prop := ∀ b ∈ s.bytes, 32 ≤ b ∧ b < 127 ∧ b ≠ 34 ∧ b ≠ 92

/-- no line feed and no carriage return -/
def OneLine (bs : Bytes) : Prop := 10 ∉ bs ∧ 13 ∉ bs

end Mqrstt.Spec
