import Verif.Model.Drop
import Verif.Spec.Bytes
import Verif.Spec.Wire
/-!
# What a server finds in the bytes a client writes
-/

namespace Mqrstt.Spec
open _root_.Spec

/-- `b` begins with the packet `p` in MQTT's format, and `b'` follows -/
def OnWire (b : Bytes) (p : Packet) (b' : Bytes) : Prop := ∃ f, b = f ++ b' ∧ PacketSays p f

/-- `bs` is these packets in MQTT's format, one after the other, to the last byte -/
def WireIs (bs : Bytes) (ps : List Packet) : Prop := Stream OnWire bs ps []

/-- the packets written on the newest connection, one step -/
def tokioSentStep (r : List Packet) : TokioOp × List Obs → List Packet
  | (.connect _, obs) => if hasConnected obs then writtenIn obs else r
  | (_, obs) => r ++ writtenIn obs

def smolSentStep (r : List Packet) : SmolOp × List Obs → List Packet
  | (.connect _, obs) => if hasConnected obs then writtenIn obs else r
  | (_, obs) => r ++ writtenIn obs

/-! ## histories in which `run` may be dropped in the middle of its work -/

/-- the packets written on the newest connection; a drop adds nothing to them -/
def tokioWireSentStep (r : List Packet) : TokioWireOp × List Obs → List Packet
  | (.op op, obs) => tokioSentStep r (op, obs)
  | (.drop _ _ _ _, _) => r
  | (.dropConnect _ _, _) => r

def smolWireSentStep (r : List Packet) : SmolWireOp × List Obs → List Packet
  | (.op op, obs) => smolSentStep r (op, obs)
  | (.drop _ _ _, _) => r
  | (.dropConnect _ _, _) => r

def tokioSent (o : Options) (t : Nat) (ops : List TokioWireOp) : List Packet :=
  (log TokioWire.step (TokioWire.new o t) ops).foldl tokioWireSentStep []

def smolSent (checks : Bool) (o : Options) (t : Nat) (ops : List SmolWireOp) : List Packet :=
  (log SmolWire.step (SmolWire.new checks o t) ops).foldl smolWireSentStep []

/-- `run` is dropped while it writes -/
def tokioCutsWrite : TokioWireOp → Bool
  | .drop _ (.writing _) _ _ => true
  | _ => false

def smolCutsWrite : SmolWireOp → Bool
  | .drop _ (.writing _) _ => true
  | _ => false

/-- what can be seen of a history from outside the calls of `connect` and `run`: what is written, when, what is read, which
connections come about, what the users are told, what `run` reports and shows; left out: how an unsuccessful call of `connect`
ends, dropped calls, and the CONNACK shown to the handler -/
def outward (tr : List Obs) : List Obs :=
  tr.filter fun | .connectFailed _ => false | .cancelled => false | .delivered (.connAck _) => false | _ => true

/-- the second history is the first with every dropped call of `connect` replaced by another call of `connect` -/
inductive TokioInstead : List TokioWireOp → List TokioWireOp → Prop where
  | nil : TokioInstead [] []
  | op {ops ops' : List TokioWireOp} (op : TokioOp) (h : TokioInstead ops ops') : TokioInstead (.op op :: ops) (.op op :: ops')
  | drop {ops ops' : List TokioWireOp} (b : TokioBranch) (d : DropAt) (lost : Nat) (T : Times) (h : TokioInstead ops ops') :
    TokioInstead (.drop b d lost T :: ops) (.drop b d lost T :: ops')
  | connect {ops ops' : List TokioWireOp} (i i' : TokioConnect) (d : ConnectDropAt) (h : TokioInstead ops ops') :
    TokioInstead (.dropConnect i d :: ops) (.op (.connect i') :: ops')

inductive SmolInstead : List SmolWireOp → List SmolWireOp → Prop where
  | nil : SmolInstead [] []
  | op {ops ops' : List SmolWireOp} (op : SmolOp) (h : SmolInstead ops ops') : SmolInstead (.op op :: ops) (.op op :: ops')
  | drop {ops ops' : List SmolWireOp} (b : SmolBranch) (d : DropAt) (T : Times) (h : SmolInstead ops ops') :
    SmolInstead (.drop b d T :: ops) (.drop b d T :: ops')
  | connect {ops ops' : List SmolWireOp} (i i' : SmolConnect) (d : ConnectDropAt) (h : SmolInstead ops ops') :
    SmolInstead (.dropConnect i d :: ops) (.op (.connect i') :: ops')

/-- `bs` is packets in MQTT's format one after the other, at most `n` of which are cut off somewhere -/
inductive Cuts : Nat → Bytes → Prop where
  | nil {n : Nat} : Cuts n []
  | whole {n : Nat} {bs f : Bytes} {p : Packet} (h : Cuts n bs) (hf : PacketSays p f) : Cuts n (bs ++ f)
  | cut {n : Nat} {bs f : Bytes} {p : Packet} (k : Nat) (h : Cuts n bs) (hf : PacketSays p f) : Cuts (n + 1) (bs ++ f.take k)

end Mqrstt.Spec
