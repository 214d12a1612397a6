import Verif.Model.Options
/-!
# Vocabulary of the two network loops

Source: `/repo/mqrstt/src/{lib,error}.rs`. The loops themselves are in `Tokio.lean` and `Smol.lean`.

Time is a number of nanoseconds. Every call of `Instant::now()` may return a later time than the one
before; the times are inputs of a step.
-/

namespace Mqrstt

/-- `NetworkStatus`, lib.rs 139-148 -/
inductive Status where
  | shutdownSignal | incomingDisconnect | outgoingDisconnect | keepAliveTimeout
  deriving DecidableEq, Repr

/-- `ConnectionError`, error.rs 12-43 (only the variants the loops produce; I/O errors without their
details) -/
inductive ConnErr where
  | noNetwork
  | noOutgoingPacketSender
  | deserialization (e : DeErr)
  | serialization (e : SerErr)
  | io
  | refused (r : Reason)
  | notConnAck (p : Packet)
  | handler (e : HErr)

/-- how `run` ends, lib.rs 139-148, error.rs, and a panic -/
inductive End where
  | status (s : Status)
  | error (e : ConnErr)
  | panicked

/-- what an observer of the user's side and of the connection sees, in order (vocabulary of the observer, no code): the
results, writes and handler calls of tokio/network.rs 60-198 and smol/network.rs 68-216 -/
inductive Obs where
  /-- a step of the clients, or the network was dropped -/
  | user (e : Event)
  /-- a packet has been written and flushed; writing started at `start` and was over by `stop` -/
  | wrote (p : Packet) (start stop : Nat)
  /-- a packet has been read from the connection -/
  | read (p : Packet)
  /-- the user's handler has been called with a packet and has returned -/
  | delivered (p : Packet)
  /-- `connect` returned `Ok`; the server's answer and the time at which the client last looked at the clock -/
  | connected (c : ConnAck) (t : Nat)
  | connectFailed (e : ConnErr)
  | connectPanicked
  /-- `run` was called on a live connection -/
  | started
  /-- the future of `run` was dropped while it waited in `select!` -/
  | cancelled
  /-- `run` returned or panicked -/
  | ended (e : End)

/-- the times of one turn of a loop: entering `select!`, completion of the chosen branch, first and second
`Instant::now()` after the branch's work: the calls of `Instant::now()` in tokio/network.rs 62, 75, 123-125, 150-186 and
smol/network.rs 70, 83, 137-139, 175-203 -/
structure Times where
  enter : Nat
  fire : Nat
  first : Nat
  second : Nat

/-- clocks do not run backwards: `Instant::now()` of std is monotonic (tokio/network.rs 123-186, smol/network.rs 137-203) -/
def Times.ok (T : Times) (now : Nat) : Bool :=
  decide (now ≤ T.enter) && decide (T.enter ≤ T.fire) && decide (T.fire ≤ T.first) && decide (T.first ≤ T.second)

/-- the steps that belong to the clients, client.rs 77-838 -/
def Op.ofClient : Op → Bool
  | .call _ | .submit _ | .abandon _ | .dropClients => true
  | _ => false

/-- is this the user's or the timer's DISCONNECT: `packet.packet_type() == PacketType::Disconnect`, tokio/network.rs
172, smol/network.rs 185 -/
def Packet.isDisconnect : Packet → Bool
  | .disconnect _ => true
  | _ => false

/-- the DISCONNECT of the keep-alive timer, tokio/network.rs 189-190, smol/network.rs 207-208 -/
def keepAliveDisconnect : Packet := .disconnect ⟨.keepAliveTimeout, .empty⟩

/-- `server_keep_alive` of a CONNACK, tokio/network.rs 64, smol/network.rs 72 -/
def ConnAck.serverKeepAlive (c : ConnAck) : Option UInt16 := c.props.val .serverKeepAlive

/-- a history of a network with this step function: steps that are not enabled are skipped; the observations in
order: the loops of tokio/network.rs 120-197 and smol/network.rs 104-116, and the user's calls around them -/
def history {S O : Type} (step : S → O → Option (S × List Obs)) (s : S) : List O → S × List Obs
  | [] => (s, [])
  | op :: ops =>
    match step s op with
    | none => history step s ops
    | some (s', o) => let (s'', os) := history step s' ops; (s'', o ++ os)

end Mqrstt
