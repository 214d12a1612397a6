import Verif.Spec.Reconnect
import Verif.Spec.Reuse
import Verif.Spec.Sender
import Verif.Spec.WellFormed
/-!
# What the error of a refused call claims (C113)
-/

namespace Mqrstt.Spec
open Mqrstt

/-- the topics named in a call -/
def topicsIn : Request → List Str
  | .publish topic _ _ _ _ => [topic]
  | .subscribe topics _ => topics.map (·.1)
  | .unsubscribe topics _ => topics
  | .disconnect _ _ => []

/-- the packet is sent in `n` bytes, by the buffered or by the streaming writer -/
def SentIn (p : Packet) (n : Nat) : Prop :=
  (∃ bs, p.write = .ok bs ∧ n = bs.length) ∨ (∃ bs k, p.asyncWrite = .ok (bs, k) ∧ n = bs.length)

/-- What an error of a call claims. `limit`: the maximum packet size in the options; `pre`: what happened before; `size p n`: `n`
is the size of `p`. -/
def RefusalClaim (limit : Nat) (pre : List Obs) (size : Packet → Nat → Prop) (q : Request) (id : Option UInt16) : ClientErr → Prop
  | .noNetworkChannel => ¬ Usable pre
  | .validation (.topicSize n) => ∃ topic ∈ topicsIn q, topic.bytes.length = n ∧ n > 65535
  | .validation (.maxPacketSize n) => n > limit ∧ ∃ p, q.packet id = some p ∧ size p n

/-- `n` is the size of the packet without its first byte and its length -/
def SizeOfRest (p : Packet) (n : Nat) : Prop := _root_.Spec.WF p → ∀ m, SentIn p m → n + 2 ≤ m ∧ m ≤ n + 5

/-! ## which calls are to be accepted (C115) -/

/-- after what is observed in `pre`, one of the clients goes on with `op`: it makes a call, or a call that waits for room in the
queue goes on. `r` is what is observed then; `none` if there is no such call, or it cannot go on. -/
inductive GoesOn (o : Options) (pre : List Obs) (op : Op) (r : Option (List Obs)) : Prop where
  | tokio (t : Nat) (ops : List TokioOp) (h : pre = tokioTrace o t ops)
      (hr : r = ((tokio o t ops).step (.client op)).map (·.2))
  | smol (checks : Bool) (t : Nat) (ops : List SmolOp) (h : pre = smolTrace checks o t ops)
      (hr : r = ((smol checks o t ops).step (.client op)).map (·.2))

/-- no topic is too long, and the packet, whatever identifier it gets, is one of MQTT and sent in at most `limit` bytes -/
def Servable (limit : Nat) (q : Request) : Prop :=
  (∀ topic ∈ topicsIn q, topic.bytes.length ≤ 65535) ∧
  ∀ id p, id.isSome = q.takesId → q.packet id = some p → _root_.Spec.WF p ∧ ∃ m, SentIn p m ∧ m ≤ limit

/-- a topic is too long, or the packet is sent in more than `limit` bytes -/
def Unservable (limit : Nat) (q : Request) : Prop :=
  (∃ topic ∈ topicsIn q, topic.bytes.length > 65535) ∨
  ∀ id p, id.isSome = q.takesId → q.packet id = some p → _root_.Spec.WF p ∧ ∃ m, SentIn p m ∧ m > limit

/-- how many identifiers calls have received -/
def idsTaken (tr : List Obs) : Nat :=
  (tr.filterMap fun x => match x with
    | .user e => handedOut e
    | _ => none).length

/-- how many calls wait for room in the queue -/
def waitingCalls (tr : List Obs) : Nat :=
  tr.foldl (fun n x => match x with
    | .user (.called _ _ _) => n + 1
    | .user (.submitted _) | .user (.refused _) | .user (.abandoned _) => n - 1
    | .user .clientsDropped => 0
    | _ => n) 0

end Mqrstt.Spec
