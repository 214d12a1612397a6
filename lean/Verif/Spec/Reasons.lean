import Verif.Spec.Bytes
import Verif.Spec.Blame
import Verif.Spec.Requests
import Verif.Spec.Senders
/-!
# What the errors of `run` claim (C112)
-/

namespace Mqrstt.Spec
open Mqrstt

/-- the identifier of an acknowledgement -/
def acknowledged : Packet → Option UInt16
  | .pubAck a | .pubRec a | .pubComp a => some a.id
  | .subAck a | .unsubAck a => some a.id
  | _ => none

/-- packets that a server does not send after CONNACK -/
def OutOfPlace (p : Packet) : Prop :=
  p.type = .connect ∨ p.type = .connAck ∨ p.type = .subscribe ∨ p.type = .unsubscribe ∨ p.type = .pingReq ∨ p.type = .auth

/-- what an error of the session claims about the packet `p` that was read after `tr` -/
def SessionClaim (cleanStart : Bool) (tr : List Obs) (p : Packet) : HErr → Prop
  | .unsolicited id k => acknowledged p = some id ∧ p.type = k ∧ ¬ Awaits cleanStart tr p
  | .unexpectedPacket k => p.type = k ∧ OutOfPlace p
  | .packetIdChannelError id => acknowledged p = some id ∧ ClientsGone tr
  | .missingPacketId => False
  | .packetIdCollision _ => False

/-- What an error of `run` claims. `tr`: what happened before; `obs`: the last step; `cut`: the connection broke or was closed;
`bad e`: what the server sent is wrong in the way `e` says; `unfit p e`: `p` cannot be encoded, for the reason `e`. -/
def Claim (cleanStart : Bool) (tr obs : List Obs) (cut : Prop) (bad : DeErr → Prop) (unfit : Packet → SerErr → Prop) :
    ConnErr → Prop
  | .noNetwork => isUp tr = false ∧ obs = [.ended (.error .noNetwork)]
  | .noOutgoingPacketSender => ClientsGone tr
  | .deserialization e => bad e
  | .serialization e => ∃ p ∈ submittedIn tr, unfit p e
  | .io => cut
  | .handler e => ∃ p, obs = [.read p, .ended (.error (.handler e))] ∧ SessionClaim cleanStart tr p e
  | .refused _ => False
  | .notConnAck _ => False

/-- tokio: has the server closed the current connection -/
def closedStep (closed : Bool) : TokioOp × List Obs → Bool
  | (.connect i, obs) => if hasConnected obs then i.eof else closed
  | (.close, _) => true
  | _ => closed

def serverClosed (o : Options) (t : Nat) (ops : List TokioOp) : Bool :=
  (log Tokio.step (Tokio.new o t) ops).foldl closedStep false

/-- after the packets that were read no further one follows -/
def NothingLeft (r : Rx) : Prop := ∃ rest, Stream StreamPacket r.bytes r.packets rest ∧ ∀ p rest', ¬ StreamPacket rest p rest'

/-- tokio: reading or writing failed, or the server has closed the connection and there is nothing left to read -/
def TokioCut (o : Options) (t : Nat) (ops : List TokioOp) (op : TokioOp) : Prop :=
  (∃ lost io T, op = .turn .readError lost io T) ∨ (∃ b lost T, op = .turn b lost false T) ∨
  (∃ lost io T, op = .turn .read lost io T) ∧ serverClosed o t ops = true ∧
    ((tokioRx o t ops).taken = 0 → NothingLeft (tokioRx o t ops))

/-- smol: reading or writing failed, or a read returned nothing because the server has closed the connection -/
def SmolCut (op : SmolOp) : Prop :=
  (∃ io T, op = .turn .readError io T) ∨ (∃ b T, op = .turn b false T) ∨ ∃ io T, op = .turn (.read []) io T

/-- the bytes begin with a packet of which the error is true (C110, with the slips listed there) -/
def StreamBad (bs : Bytes) (e : DeErr) : Prop :=
  ∃ v after, bs = v :: after ∧ (_root_.Spec.HeaderBlame v after e ∨
    ∃ k len body, _root_.Spec.FirstByteAllowed k v ∧ after = len ++ body ∧ _root_.Spec.IsVbi len ∧
      (_root_.Spec.Justified k (_root_.Spec.vbiValue len) body e ∨ _root_.Spec.StreamSlip k (_root_.Spec.vbiValue len) body e))

def BufferBad (bs : Bytes) (e : DeErr) : Prop :=
  ∃ v after, bs = v :: after ∧ (_root_.Spec.HeaderBlame v after e ∨
    ∃ k len body next, _root_.Spec.FirstByteAllowed k v ∧ after = len ++ (body ++ next) ∧ _root_.Spec.IsVbi len ∧
      _root_.Spec.vbiValue len = body.length ∧
      (_root_.Spec.Justified k body.length body e ∨ _root_.Spec.BufferSlip k body.length body e))

/-- after the packets that were read on this connection something follows of which the error is true; `R`: how packets are
divided -/
def Bad (R : Bytes → Packet → Bytes → Prop) (wrong : Bytes → DeErr → Prop) (r : Rx) (e : DeErr) : Prop :=
  ∃ rest, Stream R r.bytes r.packets rest ∧ wrong rest e

/-- What an error of `connect` claims. `tr`: what happened before; `obs`: the `connect`; `packet`: the CONNECT; `cut`: the
connection broke or was closed; `bad e`: the answer is wrong in the way `e` says; `unfit p e`: `p` cannot be encoded, for the
reason `e`. -/
def ConnectClaim (cleanStart : Bool) (tr obs : List Obs) (packet : Packet) (cut : Prop) (bad : DeErr → Prop)
    (unfit : Packet → SerErr → Prop) : ConnErr → Prop
  | .noNetwork => False
  | .noOutgoingPacketSender => False
  | .deserialization e => bad e
  | .serialization e => unfit packet e ∨ ∃ p ∈ (sender cleanStart tr).unacked, unfit (.publish { p with dup := true }) e
  | .io => cut
  | .refused r => ∃ c, [.read (.connAck c), .connectFailed (.refused r)] <:+ obs ∧ c.reason = r ∧ r ≠ .success
  | .notConnAck p => [.read p, .connectFailed (.notConnAck p)] <:+ obs ∧ p.type ≠ .connAck
  | .handler e => ∃ c id, [.read (.connAck c), .connectFailed (.handler e)] <:+ obs ∧ c.reason = .success ∧
      e = .packetIdChannelError id ∧ ClientsGone tr

/-- tokio: the CONNECT cannot be written, the server closes the connection without sending a packet, or what was written cannot
be flushed -/
def TokioBroke (i : TokioConnect) : Prop :=
  i.connectOk = false ∨ (i.eof = true ∧ ∀ p rest, ¬ StreamPacket i.bytes p rest) ∨ i.flushOk = false

/-- smol: the CONNECT cannot be written, the server closes the connection, what is sent again cannot be written -/
def SmolBroke (i : SmolConnect) : Prop := i.connectOk = false ∨ [] ∈ i.chunks ∨ i.resendOk = false

end Mqrstt.Spec
