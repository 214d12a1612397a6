import Verif.Model.Net
/-!
# The smol network

Source: `/repo/mqrstt/src/smol/{network,stream}.rs`.

One turn of `smol_select` is one step. What `stream.read` returns is an input: a chunk of 1 to 4096 bytes, or the
end of the stream. A dropped read future has taken nothing (`read_bytes` copies what it read without waiting).

`checks`: the program was compiled with overflow checks (debug builds); without them `usize` wraps around.

Simplifications as in `Tokio.lean`. The write buffer is not modelled: it is empty at the start of every write, as
an error during a write ends the connection.
-/

namespace Mqrstt

/-- what `parse_message` and `read` come to, smol/stream.rs 33-49, 80-101 -/
inductive SmolRead where
  | packet (p : Packet) (buffer : Bytes)
  | insufficient
  | failed (e : DeErr)
  | panic

/-- `usize` subtraction: `none` is the panic of a checked underflow, smol/stream.rs 37, 92 -/
def usizeSub (checks : Bool) (a b : Nat) : Option Nat :=
  if b ≤ a then some (a - b) else if checks then none else some (2 ^ 64 + a - b)

namespace SmolStream

/-- `Packet::read_packet` on the split-off body, smol/stream.rs 42-43, 97-99 -/
def decode (h : FixedHeader) (body rest : Bytes) : SmolRead :=
  match Packet.readPacket h body with
  | .ok p => .packet p rest
  | .error (.de e) => .failed e
  | .error _ => .panic

/-- `parse_message`, smol/stream.rs 33-49 -/
def parse (checks : Bool) (buffer : Bytes) : SmolRead :=
  match FixedHeader.read buffer with
  | .error (.insufficientBytes _) => .insufficient
  | .error (.err (.de e)) => .failed e
  | .error (.err _) => .panic
  | .ok (h, hl) =>
    if h.remLen + hl > buffer.length then
      match usizeSub checks h.remLen buffer.length with
      | none => .panic
      | some _ => .insufficient
    else
      let rest := buffer.drop hl
      decode h (rest.take h.remLen) (rest.drop h.remLen)

/-- how a blocking read during `connect` ends; `waiting`: the chunks do not suffice, smol/stream.rs 80-124 -/
inductive Outcome (α : Type) where
  | done (a : α)
  | io
  | panic
  | waiting

/-- `read_required_bytes`, smol/stream.rs 114-124, with `read_bytes`, 103-111: the empty chunk is the end of the
stream. Returns the buffer and the chunks that were not read. -/
def readRequired (required : Nat) : Nat → Bytes → List Bytes → Outcome (Bytes × List Bytes)
  | _, _, [] => .waiting
  | total, buffer, chunk :: chunks =>
    if chunk = [] then .io
    else
      let buffer := buffer ++ chunk
      let total := total + chunk.length
      if total ≥ required then .done (buffer, chunks) else readRequired required total buffer chunks

/-- `advance`, `split_to` and decoding at the end of `read`, smol/stream.rs 95-99; `split_to` panics if the buffer
is too short -/
def readBody (h : FixedHeader) (hl : Nat) (buffer : Bytes) (chunks : List Bytes) :
    Outcome (Packet × Bytes × List Bytes) :=
  let rest := buffer.drop hl
  if h.remLen > rest.length then .panic
  else
    match decode h (rest.take h.remLen) (rest.drop h.remLen) with
    | .packet p buffer => .done (p, buffer, chunks)
    | .failed _ => .io
    | _ => .panic

/-- `read`, smol/stream.rs 80-101. Every turn but the last reads at least one chunk, so the number of chunks plus one is
fuel enough. -/
def read (checks : Bool) : Nat → Bytes → List Bytes → Outcome (Packet × Bytes × List Bytes)
  | 0, _, _ => .waiting
  | fuel + 1, buffer, chunks =>
    match FixedHeader.read buffer with
    | .error (.insufficientBytes required) =>
      match readRequired required 0 buffer chunks with
      | .done (buffer, chunks) => read checks fuel buffer chunks
      | .io => .io
      | .panic => .panic
      | .waiting => .waiting
    | .error (.err (.de _)) => .io
    | .error (.err _) => .panic
    | .ok (h, hl) =>
      if hl + h.remLen > buffer.length then
        match usizeSub checks h.remLen buffer.length with
        | none => .panic
        | some required =>
          match readRequired required 0 buffer chunks with
          | .done (buffer, chunks) => readBody h hl buffer chunks
          | .io => .io
          | .panic => .panic
          | .waiting => .waiting
      else readBody h hl buffer chunks

end SmolStream

/-- `Network`, smol/network.rs 22-38, with the clients and the session (`sys`). `network` holds the read buffer of
the connection; `running`: `run` is executing. `now` is the latest time the model has seen. -/
structure Smol where
  checks : Bool
  sys : Sys
  options : Options
  keepAlive : Nat
  perform : Bool
  lastAction : Nat
  await : Option Nat
  outgoing : List Packet
  network : Option Bytes
  running : Bool
  now : Nat

/-- which branch of `select!` completes, smol/network.rs 143-212 -/
inductive SmolBranch where
  /-- `stream.read` returns these bytes; none at all is the end of the stream -/
  | read (chunk : Bytes)
  | readError
  | outgoing
  | timer

/-- what the environment does during a `connect`, smol/network.rs 68-89, smol/stream.rs 56-78 -/
structure SmolConnect where
  connectOk : Bool
  /-- what the reads return; an empty chunk is the end of the stream -/
  chunks : List Bytes
  /-- the retransmitted packets can be written -/
  resendOk : Bool
  times : Times

/-- the calls and turns of smol/network.rs 41-216, and the steps of the clients -/
inductive SmolOp where
  | client (op : Op)
  | dropNetwork
  | connect (i : SmolConnect)
  | start
  | turn (b : SmolBranch) (io : Bool) (T : Times)
  | cancel

namespace Smol

/-- `Network::new`, smol/network.rs 41-59 -/
def new (checks : Bool) (o : Options) (now : Nat) : Smol :=
  ⟨checks, o.sys, o, o.keepAlive, true, now, none, [], none, false, now⟩

/-- `write`, smol/stream.rs 126-136 -/
def writePacket (p : Packet) (io : Bool) : Except ConnErr Unit :=
  match p.write with
  | .error e => .error (.serialization e)
  | .ok _ => if io then .ok () else .error .io

/-- `write_all`, smol/stream.rs 138-156: everything is serialised, then written -/
def writeAll (ps : List Packet) (io : Bool) : Except ConnErr Unit :=
  match ps with
  | [] => if io then .ok () else .error .io
  | p :: ps =>
    match p.write with
    | .error e => .error (.serialization e)
    | .ok _ => writeAll ps io

/-- `run` ends: smol/network.rs 107-113 -/
def finish (s : Smol) (obs : List Obs) (e : End) : Smol × List Obs :=
  ({ s with network := none, await := none, outgoing := [], running := false }, obs ++ [.ended e])

/-- the duration of the timer started at `enter`, smol/network.rs 133-140 -/
def sleep (s : Smol) (enter : Nat) : Nat :=
  if s.perform = false then fromSecs 3600
  else match s.await with
    | some t => t + s.keepAlive - enter
    | none => s.lastAction + s.keepAlive - enter

/-- `smol::Timer::after(sleep)` has completed, smol/network.rs 133-140, 198 -/
def sleepOver (s : Smol) (T : Times) : Bool := decide (T.enter + s.sleep T.enter ≤ T.fire)

/-- `write_all(outgoing_packet_buffer)` after a packet, smol/network.rs 174-175 -/
def flushOutgoing (s : Smol) (obs : List Obs) (io : Bool) (T : Times) : Smol × List Obs :=
  match writeAll s.outgoing io with
  | .ok () => ({ s with outgoing := [], lastAction := T.first },
      obs ++ s.outgoing.map fun p => .wrote p T.fire T.first)
  | .error e => s.finish obs (.error e)

/-- a parsed packet, smol/network.rs 149-176 -/
def onPacket (s : Smol) (p : Packet) (io : Bool) (T : Times) : Option (Smol × List Obs) :=
  match p with
  | .pingResp => some ({ s with await := none }.flushOutgoing [.read p, .delivered p] io T)
  | .disconnect _ => some (s.finish [.read p, .delivered p] (.status .incomingDisconnect))
  | _ =>
    match s.sys.step (.receive p) with
    | some (sys, .received _ reply shown) =>
      let s := { s with sys := sys, outgoing := s.outgoing ++ reply.toList }
      some (s.flushOutgoing (if shown then [.read p, .delivered p] else [.read p]) io T)
    | some (sys, .receivedError _ e) => some ({ s with sys := sys }.finish [.read p] (.error (.handler e)))
    | some (sys, .panicked) => some ({ s with sys := sys }.finish [.read p] .panicked)
    | _ => none

/-- the read branch, smol/network.rs 144-180 with `read_bytes`, smol/stream.rs 103-111. A read returns at most
4096 bytes (24). -/
def onRead (s : Smol) (buffer chunk : Bytes) (io : Bool) (T : Times) : Option (Smol × List Obs) :=
  if chunk = [] then some (s.finish [] (.error .io))
  else if chunk.length > 4096 then none
  else
    let buffer := buffer ++ chunk
    match SmolStream.parse s.checks buffer with
    | .packet p rest => { s with network := some rest }.onPacket p io T
    | .insufficient => some ({ s with network := some buffer }, [])
    | .failed e => some (s.finish [] (.error (.deserialization e)))
    | .panic => some ({ s with sys := s.sys.die }.finish [] .panicked)

/-- the outgoing branch, smol/network.rs 181-197 -/
def onOutgoing (s : Smol) (io : Bool) (T : Times) : Option (Smol × List Obs) :=
  match s.sys.queue with
  | [] =>
    if s.sys.pool.closed then some (s.finish [] (.error .noOutgoingPacketSender)) else none
  | p :: _ =>
    match writePacket p io with
    | .error e =>
      match s.sys.step (.write false) with
      | some (sys, _) => some ({ s with sys := sys }.finish [] (.error e))
      | none => none
    | .ok () =>
      match s.sys.step (.write true) with
      | some (sys, .written _) =>
        let s := { s with sys := sys, lastAction := T.first }
        if p.isDisconnect then some (s.finish [.wrote p T.fire T.first] (.status .outgoingDisconnect))
        else some (s, [.wrote p T.fire T.first])
      | some (sys, .writtenError _ e) =>
        some ({ s with sys := sys }.finish [.wrote p T.fire T.first] (.error (.handler e)))
      | some (sys, .panicked) => some ({ s with sys := sys }.finish [.wrote p T.fire T.first] .panicked)
      | _ => none

/-- the timer branch, smol/network.rs 198-211 -/
def onTimer (s : Smol) (io : Bool) (T : Times) : Option (Smol × List Obs) :=
  if s.sleepOver T then
    if s.await.isNone && s.perform then
      match writePacket .pingReq io with
      | .ok () => some ({ s with lastAction := T.first, await := some T.second }, [.wrote .pingReq T.fire T.first])
      | .error e => some (s.finish [] (.error e))
    else
      match writePacket keepAliveDisconnect io with
      | .ok () => some (s.finish [.wrote keepAliveDisconnect T.fire T.first] (.status .keepAliveTimeout))
      | .error e => some (s.finish [] (.error e))
  else none

/-- one turn, `smol_select`, smol/network.rs 119-216, in the loop of `run`, 104-116 -/
def turn (s : Smol) (b : SmolBranch) (io : Bool) (T : Times) : Option (Smol × List Obs) :=
  match s.network with
  | some buffer =>
    if T.ok s.now && s.sys.alive && s.running then
      let s := { s with now := T.second }
      match b with
      | .read chunk => s.onRead buffer chunk io T
      | .readError => some (s.finish [] (.error .io))
      | .outgoing => s.onOutgoing io T
      | .timer => s.onTimer io T
    else none
  | none => none

/-- what `connect` takes from a CONNACK, smol/network.rs 72-77 -/
def noteConnAck (s : Smol) (c : ConnAck) (t : Nat) : Smol :=
  let keepAlive := match c.serverKeepAlive with
    | some k => fromSecs k.toNat
    | none => s.keepAlive
  { s with lastAction := t, keepAlive := keepAlive, perform := if keepAlive = 0 then false else s.perform }

/-- `connect` after the answer of the server, smol/network.rs 70-88 -/
def established (s : Smol) (c : ConnAck) (buffer : Bytes) (i : SmolConnect) (obs : List Obs) :
    Option (Smol × List Obs) :=
  let s := s.noteConnAck c i.times.fire
  match s.sys.step (.connAck c) with
  | some (sys, .connected _ ps) =>
    let s := { s with sys := sys }
    let obs := obs ++ [.delivered (.connAck c)]
    match writeAll ps i.resendOk with
    | .ok () =>
      some ({ s with lastAction := i.times.second, network := some buffer },
        obs ++ (ps.map fun p => .wrote p i.times.fire i.times.first) ++ [.connected c i.times.second])
    | .error e => some (s, obs ++ [.connectFailed e])
  | some (sys, .connectError _ e) => some ({ s with sys := sys }, obs ++ [.connectFailed (.handler e)])
  | some (sys, .panicked) => some ({ s with sys := sys, network := none }, obs ++ [.connectPanicked])
  | _ => none

/-- `connect`, smol/network.rs 68-89, with `Stream::connect`, smol/stream.rs 56-78. `none`: the answer has not
arrived yet, or there are chunks that would not have been read yet. -/
def connect (s : Smol) (i : SmolConnect) : Option (Smol × List Obs) :=
  if i.times.ok s.now && s.sys.alive && !s.running then
    let s := { s with now := i.times.second }
    let connect := s.options.connectPacket
    match writePacket connect i.connectOk with
    | .error e => some (s, [.connectFailed e])
    | .ok () =>
      let obs := [.wrote connect i.times.enter i.times.fire]
      match SmolStream.read s.checks (i.chunks.length + 1) [] i.chunks with
      | .done (.connAck c, buffer, []) =>
        let obs := obs ++ [.read (.connAck c)]
        if c.reason = .success then s.established c buffer i obs
        else some (s, obs ++ [.connectFailed (.refused c.reason)])
      | .done (p, _, []) => some (s, obs ++ [.read p, .connectFailed (.notConnAck p)])
      | .done (_, _, _ :: _) => none
      | .io => some (s, obs ++ [.connectFailed .io])
      | .panic => some ({ s with sys := s.sys.die, network := none }, obs ++ [.connectPanicked])
      | .waiting => none
  else none

/-- a step of any party, smol/network.rs 68-216, client.rs -/
def step (s : Smol) : SmolOp → Option (Smol × List Obs)
  | .client op =>
    if op.ofClient then
      match s.sys.step op with
      | some (sys, e) => some ({ s with sys := sys }, [.user e])
      | none => none
    else none
  | .dropNetwork =>
    if s.running then none
    else
      match s.sys.step .dropNetwork with
      | some (sys, e) => some ({ s with sys := sys, network := none }, [.user e])
      | none => none
  | .connect i => s.connect i
  | .start =>
    if !s.running && s.sys.alive then
      match s.network with
      | none => some (s, [.ended (.error .noNetwork)])
      | some _ => some ({ s with running := true }, [.started])
    else none
  | .turn b io T => s.turn b io T
  | .cancel => if s.running then some ({ s with running := false }, [.cancelled]) else none

/-- a history of all parties, smol/network.rs 68-216, client.rs -/
def runOps (s : Smol) (ops : List SmolOp) : Smol × List Obs := history step s ops

end Smol
end Mqrstt
