import Verif.Model.Net
/-!
# The tokio network

Source: `/repo/mqrstt/src/tokio/{network,stream}.rs`.

One turn of the loop of `tokio_select` is one step; which branch of `select!` completes, whether writes
succeed, and all times are inputs. `select!` drops the futures of the other branches; the read future has by then
taken some bytes from the connection (input `lost`), which are gone.

Simplifications: I/O errors carry no details. A serialisation or I/O error in the middle of a packet may leave
part of the packet on the wire; as every such error ends the connection this is not tracked. The future of
`run` is dropped only while it waits in `select!`, not while it writes or while the user's handler runs.
`Instant + Duration` panics on overflow; times are unbounded here.
-/

namespace Mqrstt

/-- the stream: bytes that have arrived and are not consumed yet, and whether the server has closed it, the `S` of
tokio/network.rs 24 -/
structure TokioConn where
  input : Bytes
  eof : Bool

/-- `Network`, tokio/network.rs 22-32, with the clients and the session (`sys`). `run` is present while `run`
executes and holds its local `await_pingresp` (118). `now` is the latest time the model has seen. -/
structure Tokio where
  sys : Sys
  options : Options
  perform : Bool
  lastAction : Nat
  network : Option TokioConn
  run : Option (Option Nat)
  now : Nat

/-- which branch of `select!` completes, tokio/network.rs 129-193 -/
inductive TokioBranch where
  | read
  /-- reading fails with an I/O error -/
  | readError
  | outgoing
  | timer
  deriving DecidableEq, Repr

/-- what the environment does during a `connect`, tokio/network.rs 60-81, tokio/stream.rs -/
structure TokioConnect where
  /-- CONNECT can be written -/
  connectOk : Bool
  /-- what the server sends until `connect` has its answer or later -/
  bytes : Bytes
  /-- the server closes the stream after these bytes -/
  eof : Bool
  /-- which of the retransmitted packets can be written -/
  resendOk : Nat → Bool
  flushOk : Bool
  times : Times

/-- the calls and turns of tokio/network.rs 35-198, and the steps of the clients -/
inductive TokioOp where
  | client (op : Op)
  /-- the `Network` is dropped -/
  | dropNetwork
  | connect (i : TokioConnect)
  /-- `run` is called -/
  | start
  /-- bytes arrive on the connection -/
  | arrive (bs : Bytes)
  /-- the server closes the connection -/
  | close
  /-- one turn of the loop; `lost`: the bytes the dropped read future had taken; `io`: the connection accepts what is
  written -/
  | turn (b : TokioBranch) (lost : Nat) (io : Bool) (T : Times)
  /-- the future of `run` is dropped -/
  | cancel (lost : Nat)

namespace Tokio

/-- `Network::new`, tokio/network.rs 35-49 -/
def new (o : Options) (now : Nat) : Tokio := ⟨o.sys, o, true, now, none, none, now⟩

/-- `write_packet`, tokio/stream.rs 45-63 -/
def writePacket (p : Packet) (io : Bool) : Except ConnErr Unit :=
  match p.asyncWrite with
  | .error e => if io then .error (.serialization e) else .error .io
  | .ok _ => if io then .ok () else .error .io

/-- `run` ends: tokio/network.rs 101-102 -/
def finish (s : Tokio) (obs : List Obs) (e : End) : Tokio × List Obs :=
  ({ s with network := none, run := none }, obs ++ [.ended e])

/-- the deadline the sleep is computed from, tokio/network.rs 121-126 -/
def deadline (s : Tokio) (await : Option Nat) : Nat :=
  match await with
  | some t => t + s.options.keepAlive
  | none => s.lastAction + s.options.keepAlive

/-- `sleep` has completed at `T.fire`: it was started at `T.enter` with the duration `deadline - T.enter`
(zero if the deadline has passed, as for `Instant - Instant` in std), tokio/network.rs 121-126, 182, 188 -/
def sleepOver (s : Tokio) (await : Option Nat) (T : Times) : Bool :=
  decide (T.enter + (s.deadline await - T.enter) ≤ T.fire)

/-- a packet read from the connection, tokio/network.rs 135-160; `none` cannot happen (the network exists) -/
def onPacket (s : Tokio) (p : Packet) (io : Bool) (T : Times) : Option (Tokio × List Obs) :=
  match p with
  | .pingResp => some ({ s with run := some none }, [.read p, .delivered p])
  | .disconnect _ => some (s.finish [.read p, .delivered p] (.status .incomingDisconnect))
  | _ =>
    match s.sys.step (.receive p) with
    | some (sys, .received _ reply shown) =>
      let s := { s with sys := sys }
      let obs := if shown then [.read p, .delivered p] else [.read p]
      match reply with
      | none => some (s, obs)
      | some r =>
        match writePacket r io with
        | .ok () => some ({ s with lastAction := T.first }, obs ++ [.wrote r T.fire T.first])
        | .error e => some (s.finish obs (.error e))
    | some (sys, .receivedError _ e) => some ({ s with sys := sys }.finish [.read p] (.error (.handler e)))
    | some (sys, .panicked) => some ({ s with sys := sys }.finish [.read p] .panicked)
    | _ => none

/-- the read branch, tokio/network.rs 130-161 with `read_packet`, tokio/stream.rs 41-43. `none`: the future is
still waiting for bytes. -/
def onRead (s : Tokio) (c : TokioConn) (io : Bool) (T : Times) : Option (Tokio × List Obs) :=
  match Packet.asyncRead c.input with
  | .ok (p, rest) => { s with network := some { c with input := rest } }.onPacket p io T
  | .error (.de e) => some (s.finish [] (.error (.deserialization e)))
  | .error .eof => if c.eof then some (s.finish [] (.error .io)) else none
  | .error _ => some ({ s with sys := s.sys.die }.finish [] .panicked)

/-- the outgoing branch, tokio/network.rs 162-181. `none`: the queue is empty and there are clients. -/
def onOutgoing (s : Tokio) (io : Bool) (T : Times) : Option (Tokio × List Obs) :=
  match s.sys.queue with
  | [] =>
    if s.sys.pool.closed then some (s.finish [] (.error .noOutgoingPacketSender)) else none
  | p :: _ =>
    match writePacket p io with
    | .error e =>
      match s.sys.step (.write false) with
      | some (sys, _) => some ({ s with sys := sys }.finish [] (.error e))
      | none => none
    | .ok () =>
      match s.sys.step (.write true) with
      | some (sys, .written _) =>
        let s := { s with sys := sys, lastAction := T.first }
        if p.isDisconnect then some (s.finish [.wrote p T.fire T.first] (.status .outgoingDisconnect))
        else some (s, [.wrote p T.fire T.first])
      | some (sys, .writtenError _ e) =>
        some ({ s with sys := sys }.finish [.wrote p T.fire T.first] (.error (.handler e)))
      | some (sys, .panicked) => some ({ s with sys := sys }.finish [.wrote p T.fire T.first] .panicked)
      | _ => none

/-- the two timer branches, tokio/network.rs 182-192. `none`: the timer is off or not over. -/
def onTimer (s : Tokio) (await : Option Nat) (io : Bool) (T : Times) : Option (Tokio × List Obs) :=
  if s.sleepOver await T then
    match await with
    | none =>
      if s.perform then
        match writePacket .pingReq io with
        | .ok () => some ({ s with lastAction := T.first, run := some (some T.second) }, [.wrote .pingReq T.fire T.first])
        | .error e => some (s.finish [] (.error e))
      else none
    | some _ =>
      match writePacket keepAliveDisconnect io with
      | .ok () => some (s.finish [.wrote keepAliveDisconnect T.fire T.first] (.status .keepAliveTimeout))
      | .error e => some (s.finish [] (.error e))
  else none

/-- the read future has taken `lost` bytes and still waits for more, tokio/network.rs 130, where `select!` drops the
future of `read_packet` when another branch wins -/
def canLose (c : TokioConn) (lost : Nat) : Bool :=
  decide (lost ≤ c.input.length) &&
    match Packet.asyncRead (c.input.take lost) with
    | .error .eof => true
    | _ => false

/-- one turn of the loop, tokio/network.rs 120-197 -/
def turn (s : Tokio) (b : TokioBranch) (lost : Nat) (io : Bool) (T : Times) : Option (Tokio × List Obs) :=
  match s.run, s.network with
  | some await, some c =>
    if T.ok s.now && s.sys.alive then
      let s := { s with now := T.second }
      match b with
      | .read => s.onRead c io T
      | .readError => some (s.finish [] (.error .io))
      | .outgoing =>
        if canLose c lost then
          { s with network := some { c with input := c.input.drop lost } }.onOutgoing io T
        else none
      | .timer =>
        if canLose c lost then
          { s with network := some { c with input := c.input.drop lost } }.onTimer await io T
        else none
    else none
  | _, _ => none

/-- `write_packets`, tokio/stream.rs 65-73: the result of every `async_write` is dropped -/
def writePackets (ok : Nat → Bool) (T : Times) : Nat → List Packet → List Obs
  | _, [] => []
  | i, p :: ps =>
    match writePacket p (ok i) with
    | .ok () => .wrote p T.fire T.first :: writePackets ok T (i + 1) ps
    | .error _ => writePackets ok T (i + 1) ps

/-- what `connect` takes from a CONNACK, tokio/network.rs 64-69 -/
def noteConnAck (s : Tokio) (c : ConnAck) (t : Nat) : Tokio :=
  let keepAlive := match c.serverKeepAlive with
    | some k => fromSecs k.toNat
    | none => s.options.keepAlive
  { s with lastAction := t, options := { s.options with keepAlive := keepAlive },
           perform := if keepAlive = 0 then false else s.perform }

/-- `connect` after the answer of the server, tokio/network.rs 62-80 -/
def established (s : Tokio) (c : ConnAck) (rest : Bytes) (i : TokioConnect) (obs : List Obs) :
    Option (Tokio × List Obs) :=
  let s := s.noteConnAck c i.times.fire
  match s.sys.step (.connAck c) with
  | some (sys, .connected _ ps) =>
    let s := { s with sys := sys }
    let obs := obs ++ [.delivered (.connAck c)] ++ writePackets i.resendOk i.times 0 ps
    if i.flushOk then
      some ({ s with lastAction := i.times.second, network := some ⟨rest, i.eof⟩ },
        obs ++ [.connected c i.times.second])
    else some (s, obs ++ [.connectFailed .io])
  | some (sys, .connectError _ e) => some ({ s with sys := sys }, obs ++ [.connectFailed (.handler e)])
  | some (sys, .panicked) => some ({ s with sys := sys, network := none }, obs ++ [.connectPanicked])
  | _ => none

/-- `connect`, tokio/network.rs 60-81, with `StreamExt::connect`, tokio/stream.rs 22-39. An error leaves the
previous connection, if any, in place. `none`: the answer has not arrived yet. -/
def connect (s : Tokio) (i : TokioConnect) : Option (Tokio × List Obs) :=
  if i.times.ok s.now && s.sys.alive && s.run.isNone then
    let s := { s with now := i.times.second }
    let connect := s.options.connectPacket
    match writePacket connect i.connectOk with
    | .error e => some (s, [.connectFailed e])
    | .ok () =>
      let obs := [.wrote connect i.times.enter i.times.fire]
      match Packet.asyncRead i.bytes with
      | .ok (.connAck c, rest) =>
        let obs := obs ++ [.read (.connAck c)]
        if c.reason = .success then s.established c rest i obs
        else some (s, obs ++ [.connectFailed (.refused c.reason)])
      | .ok (p, _) => some (s, obs ++ [.read p, .connectFailed (.notConnAck p)])
      | .error (.de e) => some (s, obs ++ [.connectFailed (.deserialization e)])
      | .error .eof => if i.eof then some (s, obs ++ [.connectFailed .io]) else none
      | .error _ => some ({ s with sys := s.sys.die, network := none }, obs ++ [.connectPanicked])
  else none

/-- a step of any party, tokio/network.rs 60-198, client.rs -/
def step (s : Tokio) : TokioOp → Option (Tokio × List Obs)
  | .client op =>
    if op.ofClient then
      match s.sys.step op with
      | some (sys, e) => some ({ s with sys := sys }, [.user e])
      | none => none
    else none
  | .dropNetwork =>
    if s.run.isNone then
      match s.sys.step .dropNetwork with
      | some (sys, e) => some ({ s with sys := sys, network := none }, [.user e])
      | none => none
    else none
  | .connect i => s.connect i
  | .start =>
    if s.run.isNone && s.sys.alive then
      match s.network with
      | none => some (s, [.ended (.error .noNetwork)])
      | some _ => some ({ s with run := some none }, [.started])
    else none
  | .arrive bs =>
    match s.network with
    | some c => if c.eof then none else some ({ s with network := some { c with input := c.input ++ bs } }, [])
    | none => none
  | .close =>
    match s.network with
    | some c => some ({ s with network := some { c with eof := true } }, [])
    | none => none
  | .turn b lost io T => s.turn b lost io T
  | .cancel lost =>
    match s.run, s.network with
    | some _, some c =>
      if canLose c lost then
        some ({ s with run := none, network := some { c with input := c.input.drop lost } }, [.cancelled])
      else none
    | _, _ => none

/-- a history of all parties, tokio/network.rs 60-198, client.rs -/
def runOps (s : Tokio) (ops : List TokioOp) : Tokio × List Obs := history step s ops

end Tokio
end Mqrstt
