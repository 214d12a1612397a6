import Verif.Spec.Understood
import Verif.Spec.Legal
import Verif.Model.Options
/-!
# Uses of the client in which smol and tokio can be compared (C111)
-/

namespace Mqrstt.Spec

/-- some readable packets of a server begin with these bytes -/
def Promising (bs : Bytes) : Prop := ∃ qs sent, _root_.Spec.ListSays _root_.Spec.Readable qs sent ∧ bs <+: sent

/-- a use of the smol client: legal options and legal calls, a keep-alive interval, which no server overrides, a server that sends
what can be understood, no `run` dropped and no panic -/
structure PlainUse (o : Options) (checks : Bool) (t : Nat) (ops : List SmolOp) : Prop where
  options : ∀ c, o.connectPacket = .connect c → _root_.Spec.LegalConnect c
  requests : ∀ q id p, .user (.called q id p) ∈ smolTrace checks o t ops → _root_.Spec.LegalRequest q ∧
    ∀ r P, q = .disconnect r P → (Packet.disconnect ⟨r, P⟩).bodyWireLen ≤ 268435455
  interval : o.keepAlive ≠ 0
  server : ∀ c, .read (.connAck c) ∈ smolTrace checks o t ops → c.serverKeepAlive = none
  answers : ∀ i, .connect i ∈ ops → Promising i.chunks.flatten
  arrived : ∀ n, Promising (smolRx checks o t (ops.take n)).bytes
  kept : .cancelled ∉ smolTrace checks o t ops
  sound : .connectPanicked ∉ smolTrace checks o t ops ∧ .ended .panicked ∉ smolTrace checks o t ops

/-- the same, of the tokio client; moreover no bytes are lost in a read that is given up, and what is sent again after a reconnect
is written either completely or not at all -/
structure PlainUseTokio (o : Options) (t : Nat) (ops : List TokioOp) : Prop where
  options : ∀ c, o.connectPacket = .connect c → _root_.Spec.LegalConnect c
  requests : ∀ q id p, .user (.called q id p) ∈ tokioTrace o t ops → _root_.Spec.LegalRequest q ∧
    ∀ r P, q = .disconnect r P → (Packet.disconnect ⟨r, P⟩).bodyWireLen ≤ 268435455
  server : ∀ c, .read (.connAck c) ∈ tokioTrace o t ops → c.serverKeepAlive = none
  answers : ∀ i, .connect i ∈ ops → Promising i.bytes
  resent : ∀ i, .connect i ∈ ops → ∀ n, i.resendOk n = i.flushOk
  arrived : ∀ n, Promising (tokioRx o t (ops.take n)).bytes
  whole : ∀ n, (tokioRx o t (ops.take n)).taken = 0
  kept : .cancelled ∉ tokioTrace o t ops
  sound : .connectPanicked ∉ tokioTrace o t ops ∧ .ended .panicked ∉ tokioTrace o t ops

/-- what was observed, but not when -/
def untimed : Obs → Obs
  | .wrote p _ _ => .wrote p 0 0
  | .connected c _ => .connected c 0
  | x => x

end Mqrstt.Spec
