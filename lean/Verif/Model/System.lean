import Verif.Model.Session
/-!
# Clients, the queue to the network, and the session, as one transition system

Source: `/repo/mqrstt/src/client.rs`, `/repo/mqrstt/src/lib.rs` 94 and 180-237.

Any number of clones of `MqttClient` share the identifier channel and the queue to the network. A call
can be suspended at two places: waiting for an identifier and waiting for room in the queue. A step of the
model runs one party from one suspension point to the next; every interleaving of calls and network
events is a list of such steps.
-/

namespace Mqrstt

/-- What a user asks a client for. The calls without properties pass the default (empty) ones, the
blocking calls differ only in how they wait (client.rs 77-87, 138-148, 180-200, 251-269, 304-315, 372-383,
402-409, 436-440; blocking 482-490, 540-551, 584-604, 656-674, 710-721, 773-784, 800-808, 834-838). -/
inductive Request where
  | publish (topic : Str) (qos : QoS) (retain : Bool) (payload : Bytes) (props : Props)
  | subscribe (topics : List (Str × SubOptions)) (props : Props)
  | unsubscribe (topics : List Str) (props : Props)
  | disconnect (reason : Reason) (props : Props)

namespace Request

/-- which calls first receive an identifier: all but QoS 0 publishes (client.rs 181-184, 252-255) and
disconnects -/
def takesId : Request → Bool
  | .publish _ .atMostOnce _ _ _ => false
  | .disconnect _ _ => false
  | _ => true

/-- the packet built for a call that received `id` (client.rs 79-80, 140-144, 187-195, 256-264, 306-310,
374-378, 403-406, 437); `none` exactly if the call takes no identifier -/
def packet (id : Option UInt16) : Request → Option Packet
  | .publish topic qos retain payload props =>
    some (.publish ⟨false, qos, retain, topic, id, props, payload⟩)
  | .subscribe topics props => id.map fun id => .subscribe ⟨id, props, topics⟩
  | .unsubscribe topics props => id.map fun id => .unsubscribe ⟨id, props, topics⟩
  | .disconnect reason props => some (.disconnect ⟨reason, props⟩)

end Request

/-- `validate(self.max_packet_size)?` on the packets that are validated (client.rs 82, 145, 197, 266, 312,
380); a disconnect is not -/
def Packet.validate (maxPacketSize : Nat) : Packet → Except ValidationErr Unit
  | .publish p => p.validate maxPacketSize
  | .subscribe p => p.validate maxPacketSize
  | .unsubscribe p => p.validate maxPacketSize
  | _ => .ok ()

/-- `CHANNEL_SIZE`, lib.rs 94 -/
def channelSize : Nat := 100

/-- `ClientError`, error.rs 99-104 -/
inductive ClientErr where
  | noNetworkChannel
  | validation (e : ValidationErr)
  deriving DecidableEq, Repr

/-- The clients (all clones together), the queue and the network's session.
* `pending`: packets of calls that wait for room in the queue;
* `queue`: the `to_network` channel (lib.rs 182, 220);
* `alive`: the `Network` value exists. It is gone when the user drops it or when its task panics.

The pool's `closed` flag says that all clients have been dropped. -/
structure Sys where
  handler : Handler
  maxPacketSize : Nat
  pending : List Packet
  queue : List Packet
  alive : Bool

/-- one step of one party, client.rs 77-838; state_handler.rs 47-195; tokio/network.rs 130-181, smol/network.rs 144-197 -/
inductive Op where
  /-- a client call runs up to the point where it waits for room in the queue -/
  | call (r : Request)
  /-- the `k`-th waiting call completes its send -/
  | submit (k : Nat)
  /-- the future of the `k`-th waiting call is dropped -/
  | abandon (k : Nat)
  /-- all clients and their calls are dropped -/
  | dropClients
  /-- the network is dropped -/
  | dropNetwork
  /-- the run loop takes the next packet from the queue and writes it; `ok`: the write succeeds -/
  | write (ok : Bool)
  /-- the run loop passes a received packet to the state handler -/
  | receive (p : Packet)
  /-- `connect` passes the server's CONNACK to the state handler -/
  | connAck (c : ConnAck)

/-- what an outsider sees of a step (vocabulary of the observer, no code): the results of client.rs 77-838 and
state_handler.rs 47-195 -/
inductive Event where
  /-- a call received this identifier (if it needs one) and its packet passed validation -/
  | called (r : Request) (id : Option UInt16) (p : Packet)
  /-- a call returned an error after having received this identifier (if any) -/
  | rejected (r : Request) (id : Option UInt16) (e : ClientErr)
  /-- a packet entered the queue and its call returned `Ok` -/
  | submitted (p : Packet)
  /-- a waiting call with this packet returned `NoNetworkChannel` -/
  | refused (p : Packet)
  /-- a waiting call with this packet was dropped -/
  | abandoned (p : Packet)
  | clientsDropped
  | networkDropped
  /-- a packet was written to the connection and recorded -/
  | written (p : Packet)
  /-- a packet was written, recording it failed -/
  | writtenError (p : Packet) (e : HErr)
  /-- writing a packet from the queue failed -/
  | writeFailed (p : Packet)
  /-- a packet was accepted: reply and whether the user's handler gets it -/
  | received (p : Packet) (reply : Option Packet) (shown : Bool)
  | receivedError (p : Packet) (e : HErr)
  /-- a CONNACK was processed, these packets are to be sent again -/
  | connected (c : ConnAck) (resend : List Packet)
  /-- a CONNACK with a failure code: nothing was done -/
  | notConnected (c : ConnAck)
  | connectError (c : ConnAck) (e : HErr)
  /-- the network task panicked -/
  | panicked

namespace Sys

/-- the clients and the network as built by `NetworkBuilder`, lib.rs 176-237: the pool holds
`send_maximum` identifiers, the state has `receive_maximum` slots (state_handler.rs 31-37) -/
def init (sendMaximum receiveMaximum : UInt16) (maxPacketSize : Nat) (cleanStart : Bool) : Sys :=
  ⟨⟨State.new receiveMaximum (Pool.new sendMaximum), cleanStart⟩, maxPacketSize, [], [], true⟩

/-- replaces the identifiers available, available_packet_ids.rs 8-11; no code of its own -/
def withPool (s : Sys) (p : Pool) : Sys :=
  { s with handler := { s.handler with state := { s.handler.state with pool := p } } }

/-- the identifiers available, available_packet_ids.rs 8-11 -/
def pool (s : Sys) : Pool := s.handler.state.pool

/-- the part of a call after the identifier: validation, then waiting for the queue. If the network is
gone the send returns an error at once. In client.rs 80-87, 142-149, 185-200 and the like. -/
def callWith (s : Sys) (r : Request) (id : Option UInt16) : Option (Sys × Event) :=
  match r.packet id with
  | none => none
  | some p =>
    match p.validate s.maxPacketSize with
    | .error e => some (s, .rejected r id (.validation e))
    | .ok () =>
      if s.alive then some ({ s with pending := s.pending ++ [p] }, .called r id p)
      else some (s, .rejected r id .noNetworkChannel)

/-- a call up to the point where it waits for room in the queue; `none` if it waits for an identifier.
An empty identifier channel whose sender is gone is an error. client.rs 77-87, 138-149, 180-200, 251-270, 304-315,
372-384, 402-410, 436-444. -/
def call (s : Sys) (r : Request) : Option (Sys × Event) :=
  if s.pool.closed then none
  else if r.takesId then
    match s.pool.take with
    | some (id, pool) => (s.withPool pool).callWith r (some id)
    | none => if s.alive then none else some (s, .rejected r none .noNetworkChannel)
  else s.callWith r none

/-- the network's part is over after a panic: unwinding drops the task with the `Network`, and the
mutexes of the state are poisoned, `unwrap()` of the locks, state.rs 57-120 -/
def die (s : Sys) : Sys := { s with alive := false }

/-- a step of any party: client.rs 77-444, state_handler.rs 47-195, the branches of tokio/network.rs 130-181 and
smol/network.rs 144-197 -/
def step (s : Sys) : Op → Option (Sys × Event)
  | .call r => s.call r
  | .submit k =>
    match s.pending[k]? with
    | none => none
    | some p =>
      if s.alive then
        if s.queue.length < channelSize then
          some ({ s with pending := s.pending.eraseIdx k, queue := s.queue ++ [p] }, .submitted p)
        else none
      else some ({ s with pending := s.pending.eraseIdx k }, .refused p)
  | .abandon k =>
    match s.pending[k]? with
    | none => none
    | some p => some ({ s with pending := s.pending.eraseIdx k }, .abandoned p)
  | .dropClients =>
    some ({ s.withPool { s.pool with closed := true } with pending := [] }, .clientsDropped)
  | .dropNetwork => if s.alive then some (s.die, .networkDropped) else none
  | .write ok =>
    if s.alive then
      match s.queue with
      | [] => none
      | p :: rest =>
        let s := { s with queue := rest }
        if ok then
          match s.handler.outgoing p with
          | (h, .ok ()) => some ({ s with handler := h }, .written p)
          | (h, .error (.err e)) => some ({ s with handler := h }, .writtenError p e)
          | (h, .error .panic) => some ({ s with handler := h }.die, .panicked)
        else some (s, .writeFailed p)
    else none
  | .receive p =>
    if s.alive then
      match s.handler.incoming p with
      | (h, .ok (reply, shown)) => some ({ s with handler := h }, .received p reply shown)
      | (h, .error (.err e)) => some ({ s with handler := h }, .receivedError p e)
      | (h, .error .panic) => some ({ s with handler := h }.die, .panicked)
    else none
  | .connAck c =>
    if s.alive then
      match s.handler.connAck c with
      | (h, .ok (some ps)) => some ({ s with handler := h }, .connected c ps)
      | (h, .ok none) => some ({ s with handler := h }, .notConnected c)
      | (h, .error (.err e)) => some ({ s with handler := h }, .connectError c e)
      | (h, .error .panic) => some ({ s with handler := h }.die, .panicked)
    else none

/-- a history: steps that are not enabled are skipped; the events in order: the loops of tokio/network.rs 120-197,
smol/network.rs 104-116 and the user's calls around them -/
def run (s : Sys) : List Op → Sys × List Event
  | [] => (s, [])
  | op :: ops =>
    match s.step op with
    | none => s.run ops
    | some (s', e) => let (s'', es) := s'.run ops; (s'', e :: es)

end Sys
end Mqrstt
