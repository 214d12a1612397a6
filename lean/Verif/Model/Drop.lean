import Verif.Model.Tokio
import Verif.Model.Smol
/-!
# The bytes a network writes, and dropping `run` in the middle of its work

Source: `/repo/mqrstt/src/{tokio,smol}/{network,stream}.rs`. `Tokio.lean` and `Smol.lean` let the future of `run` be dropped
only while it waits in `select!` (`cancel`). Here it may also be dropped while the user's handler is at work and while a
packet is being written, and the bytes on the newest connection are kept. What a write that fails leaves on the wire is not
kept: except for tokio's retransmissions (stream.rs 67) the connection is over then. The future of `connect` may be dropped
too, as by a timeout.
-/

namespace Mqrstt

/-- what tokio writes for a packet, tokio/stream.rs 45-63: `async_write` straight to the stream -/
def tokioBytes (p : Packet) : Bytes := match p.asyncWrite with | .ok (bs, _) => bs | .error _ => []

/-- what smol adds to `write_buffer` for a packet, smol/stream.rs 127 -/
def smolBytes (p : Packet) : Bytes := match p.write with | .ok bs => bs | .error _ => []

/-- the packets written, in order (vocabulary of the observer, no code): the writes of tokio/network.rs 74-190 and
smol/network.rs 82-208 -/
def Obs.sent (obs : List Obs) : List Packet := obs.filterMap fun | .wrote p _ _ => some p | _ => none

/-- has `connect` succeeded (vocabulary of the observer, no code): `Ok(())` of tokio/network.rs 80 and smol/network.rs 88 -/
def Obs.connectedIn (obs : List Obs) : Bool := obs.any fun | .connected _ _ => true | _ => false

/-- where the future of `run` is dropped: the user's handler has been called and has not returned, or the connection has
taken `k` bytes of what is being written (perhaps all of them: the flush is awaited too), the `await`s of
tokio/network.rs 137-190 and smol/network.rs 152-208 -/
inductive DropAt where
  | handling
  | writing (k : Nat)

/-- where the future of `connect` is dropped, the `await`s of tokio/network.rs 61-74 and smol/network.rs 69-82 -/
inductive ConnectDropAt where
  /-- CONNECT is being written or the answer has not arrived; `written`: CONNECT is complete -/
  | waiting (written : Bool)
  /-- the user's handler is at work on the CONNACK -/
  | handling
  /-- packets are sent again on the new connection, and `n` of them have been written -/
  | resending (n : Nat)

/-! ## tokio -/

/-- the future of `connect` is dropped, tokio/network.rs 60-81. Up to the answer (61) nothing has been changed; from the
handler (72) on the session has processed the CONNACK. `network` is set at the very end (78): the previous connection, if any,
stays in place and the new stream is gone. -/
def Tokio.dropConnect (s : Tokio) (i : TokioConnect) (d : ConnectDropAt) : Option (Tokio × List Obs) :=
  if i.times.ok s.now && s.sys.alive && s.run.isNone then
    let s := { s with now := i.times.second }
    let connect := s.options.connectPacket
    let wrote : Obs := .wrote connect i.times.enter i.times.fire
    match Tokio.writePacket connect true with
    | .error _ => none
    | .ok () =>
      match d with
      | .waiting written => some (s, (if written then [wrote] else []) ++ [.cancelled])
      | .handling =>
        match Packet.asyncRead i.bytes with
        | .ok (.connAck c, _) =>
          if c.reason = .success then
            let s := s.noteConnAck c i.times.fire
            match s.sys.step (.connAck c) with
            | some (sys, .connected _ _) => some ({ s with sys := sys }, [wrote, .read (.connAck c), .cancelled])
            | _ => none
          else none
        | _ => none
      | .resending n =>
        match Packet.asyncRead i.bytes with
        | .ok (.connAck c, _) =>
          if c.reason = .success then
            let s := s.noteConnAck c i.times.fire
            match s.sys.step (.connAck c) with
            | some (sys, .connected _ ps) =>
              some ({ s with sys := sys }, [wrote, .read (.connAck c), .delivered (.connAck c)] ++
                Tokio.writePackets i.resendOk i.times 0 (ps.take n) ++ [.cancelled])
            | _ => none
          else none
        | _ => none
  else none

/-- a tokio network and what it has written on its newest connection, tokio/network.rs 22-32; the second field is the
far side of the connection and no part of the code -/
structure TokioWire where
  net : Tokio
  wire : Bytes

/-- the steps of tokio/network.rs 60-198 and the drops of the two futures in between -/
inductive TokioWireOp where
  | op (op : TokioOp)
  /-- the future of `run` is dropped in the middle of a branch; `lost` as in `turn` -/
  | drop (b : TokioBranch) (at_ : DropAt) (lost : Nat) (T : Times)
  /-- the future of `connect` is dropped -/
  | dropConnect (i : TokioConnect) (at_ : ConnectDropAt)

namespace TokioWire

/-- tokio/network.rs 35-49 -/
def new (o : Options) (now : Nat) : TokioWire := ⟨.new o now, []⟩

/-- a successful `connect` brings a new stream; the stream of a failed one is gone, tokio/network.rs 60-81 -/
def advance (wire : Bytes) (op : TokioOp) (obs : List Obs) : Bytes :=
  match op with
  | .connect _ => if Obs.connectedIn obs then (Obs.sent obs).flatMap tokioBytes else wire
  | _ => wire ++ (Obs.sent obs).flatMap tokioBytes

/-- `write_packet(p)` is dropped after `k` bytes, tokio/stream.rs 45-63: they are on the wire, `network` is still there
(network.rs 101-102 is not reached) -/
def cut (s : TokioWire) (p : Packet) (k : Nat) (obs : List Obs) : Option (TokioWire × List Obs) :=
  if k ≤ (tokioBytes p).length then
    some (⟨{ s.net with run := none }, s.wire ++ (tokioBytes p).take k⟩, obs ++ [.cancelled])
  else none

/-- dropped in the read branch, tokio/network.rs 130-161: the packet has been read and the session has processed it -/
def dropRead (s : TokioWire) (c : TokioConn) (d : DropAt) : Option (TokioWire × List Obs) :=
  match Packet.asyncRead c.input with
  | .ok (p, rest) =>
    let net := { s.net with network := some { c with input := rest } }
    match p with
    | .pingResp | .disconnect _ =>
      match d with
      | .handling => some ({ s with net := { net with run := none } }, [.read p, .cancelled])
      | .writing _ => none
    | _ =>
      match net.sys.step (.receive p) with
      | some (sys, .received _ reply shown) =>
        let net := { net with sys := sys }
        match d, reply with
        | .handling, _ => if shown then some ({ s with net := { net with run := none } }, [.read p, .cancelled]) else none
        | .writing k, some r => cut { s with net := net } r k (if shown then [.read p, .delivered p] else [.read p])
        | .writing _, none => none
      | _ => none
  | _ => none

/-- dropped in the outgoing branch, tokio/network.rs 162-171: the packet has been taken from the queue, the session has
not been told -/
def dropOutgoing (s : TokioWire) (d : DropAt) : Option (TokioWire × List Obs) :=
  match d, s.net.sys.queue with
  | .writing k, p :: _ =>
    match s.net.sys.step (.write false) with
    | some (sys, _) => cut { s with net := { s.net with sys := sys } } p k []
    | none => none
  | _, _ => none

/-- dropped in a timer branch, tokio/network.rs 182-192 -/
def dropTimer (s : TokioWire) (await : Option Nat) (d : DropAt) (T : Times) : Option (TokioWire × List Obs) :=
  if s.net.sleepOver await T then
    match d, await with
    | .writing k, none => if s.net.perform then cut s .pingReq k [] else none
    | .writing k, some _ => cut s keepAliveDisconnect k []
    | .handling, _ => none
  else none

/-- the future of `run` is dropped inside the branch `b`, tokio/network.rs 129-193; `network` keeps the stream, since
line 102 is not reached -/
def drop (s : TokioWire) (b : TokioBranch) (d : DropAt) (lost : Nat) (T : Times) : Option (TokioWire × List Obs) :=
  match s.net.run, s.net.network with
  | some await, some c =>
    if T.ok s.net.now && s.net.sys.alive then
      let net := { s.net with now := T.second }
      let net' := { net with network := some { c with input := c.input.drop lost } }
      match b with
      | .read => dropRead { s with net := net } c d
      | .readError => none
      | .outgoing => if Tokio.canLose c lost then dropOutgoing { s with net := net' } d else none
      | .timer => if Tokio.canLose c lost then dropTimer { s with net := net' } await d T else none
    else none
  | _, _ => none

/-- a step or a drop, tokio/network.rs 60-198 -/
def step (s : TokioWire) : TokioWireOp → Option (TokioWire × List Obs)
  | .op op =>
    match s.net.step op with
    | some (net, obs) => some (⟨net, advance s.wire op obs⟩, obs)
    | none => none
  | .drop b d lost T => s.drop b d lost T
  | .dropConnect i d =>
    match s.net.dropConnect i d with
    | some (net, obs) => some ({ s with net := net }, obs)
    | none => none

/-- a history of tokio/network.rs 60-198 -/
def runOps (s : TokioWire) (ops : List TokioWireOp) : TokioWire × List Obs := history step s ops

end TokioWire

/-! ## smol -/

/-- the future of `connect` is dropped, smol/network.rs 68-89; `write_all` (82) writes all packets or none -/
def Smol.dropConnect (s : Smol) (i : SmolConnect) (d : ConnectDropAt) : Option (Smol × List Obs) :=
  if i.times.ok s.now && s.sys.alive && !s.running then
    let s := { s with now := i.times.second }
    let connect := s.options.connectPacket
    let wrote : Obs := .wrote connect i.times.enter i.times.fire
    match Smol.writePacket connect true with
    | .error _ => none
    | .ok () =>
      match d with
      | .waiting written => some (s, (if written then [wrote] else []) ++ [.cancelled])
      | .handling =>
        match SmolStream.read s.checks (i.chunks.length + 1) [] i.chunks with
        | .done (.connAck c, _, []) =>
          if c.reason = .success then
            let s := s.noteConnAck c i.times.fire
            match s.sys.step (.connAck c) with
            | some (sys, .connected _ _) => some ({ s with sys := sys }, [wrote, .read (.connAck c), .cancelled])
            | _ => none
          else none
        | _ => none
      | .resending _ =>
        match SmolStream.read s.checks (i.chunks.length + 1) [] i.chunks with
        | .done (.connAck c, _, []) =>
          if c.reason = .success then
            let s := s.noteConnAck c i.times.fire
            match s.sys.step (.connAck c) with
            | some (sys, .connected _ _) =>
              some ({ s with sys := sys }, [wrote, .read (.connAck c), .delivered (.connAck c), .cancelled])
            | _ => none
          else none
        | _ => none
  else none

/-- a smol network, what it has written on its newest connection, and the `write_buffer` of its stream, smol/stream.rs 19-30 -/
structure SmolWire where
  net : Smol
  wire : Bytes
  buffer : Bytes

/-- the steps of smol/network.rs 68-216 and the drops of the two futures in between -/
inductive SmolWireOp where
  | op (op : SmolOp)
  | drop (b : SmolBranch) (at_ : DropAt) (T : Times)
  | dropConnect (i : SmolConnect) (at_ : ConnectDropAt)

namespace SmolWire

/-- smol/network.rs 41-59 -/
def new (checks : Bool) (o : Options) (now : Nat) : SmolWire := ⟨.new checks o now, [], []⟩

/-- is there a call of `Stream::write` or `Stream::write_all` that goes through: a packet is written, or a packet has been
read and `run` goes on (smol/network.rs 174, also without an answer) -/
def writes (obs : List Obs) : Bool :=
  obs.any (fun | .wrote _ _ _ => true | _ => false) ||
    (obs.any (fun | .read _ => true | _ => false) && !obs.any (fun | .ended _ => true | _ => false))

/-- the wire and the write buffer after a step: everything in the buffer is written and the buffer cleared, smol/stream.rs
126-156; `connect` makes a new stream with an empty buffer, smol/stream.rs 57-62 -/
def advance (wire buffer : Bytes) (op : SmolOp) (obs : List Obs) : Bytes × Bytes :=
  match op with
  | .connect _ => if Obs.connectedIn obs then ((Obs.sent obs).flatMap smolBytes, []) else (wire, buffer)
  | _ => if writes obs then (wire ++ (buffer ++ (Obs.sent obs).flatMap smolBytes), []) else (wire, buffer)

/-- writing these packets is dropped after `k` bytes of what is in the buffer then, smol/stream.rs 126-156: all of them have
been encoded, the buffer has not been cleared -/
def cut (s : SmolWire) (ps : List Packet) (k : Nat) (obs : List Obs) : Option (SmolWire × List Obs) :=
  let buffer := s.buffer ++ ps.flatMap smolBytes
  if (ps.all fun p => p.write.toBool) && decide (k ≤ buffer.length) then
    some (⟨{ s.net with running := false }, s.wire ++ buffer.take k, buffer⟩, obs ++ [.cancelled])
  else none

/-- dropped in the read branch, smol/network.rs 144-180 -/
def dropRead (s : SmolWire) (buffer chunk : Bytes) (d : DropAt) : Option (SmolWire × List Obs) :=
  if chunk = [] ∨ chunk.length > 4096 then none
  else
    match SmolStream.parse s.net.checks (buffer ++ chunk) with
    | .packet p rest =>
      let net := { s.net with network := some rest }
      match p with
      | .pingResp =>
        match d with
        | .handling => some ({ s with net := { net with running := false } }, [.read p, .cancelled])
        | .writing k => cut { s with net := { net with await := none, outgoing := [] } } net.outgoing k [.read p, .delivered p]
      | .disconnect _ =>
        match d with
        | .handling => some ({ s with net := { net with running := false } }, [.read p, .cancelled])
        | .writing _ => none
      | _ =>
        match net.sys.step (.receive p) with
        | some (sys, .received _ reply shown) =>
          let net := { net with sys := sys }
          match d with
          | .handling => if shown then some ({ s with net := { net with running := false } }, [.read p, .cancelled]) else none
          | .writing k =>
            cut { s with net := { net with outgoing := [] } } (net.outgoing ++ reply.toList) k
              (if shown then [.read p, .delivered p] else [.read p])
        | _ => none
    | _ => none

/-- dropped in the outgoing branch, smol/network.rs 181-183 -/
def dropOutgoing (s : SmolWire) (d : DropAt) : Option (SmolWire × List Obs) :=
  match d, s.net.sys.queue with
  | .writing k, p :: _ =>
    match s.net.sys.step (.write false) with
    | some (sys, _) => cut { s with net := { s.net with sys := sys } } [p] k []
    | none => none
  | _, _ => none

/-- dropped in the timer branch, smol/network.rs 198-211 -/
def dropTimer (s : SmolWire) (d : DropAt) (T : Times) : Option (SmolWire × List Obs) :=
  if s.net.sleepOver T then
    match d with
    | .writing k => if s.net.await.isNone && s.net.perform then cut s [.pingReq] k [] else cut s [keepAliveDisconnect] k []
    | .handling => none
  else none

/-- the future of `run` is dropped inside the branch `b`, smol/network.rs 143-212; lines 108-110 are not reached -/
def drop (s : SmolWire) (b : SmolBranch) (d : DropAt) (T : Times) : Option (SmolWire × List Obs) :=
  match s.net.network with
  | some buffer =>
    if T.ok s.net.now && s.net.sys.alive && s.net.running then
      let s := { s with net := { s.net with now := T.second } }
      match b with
      | .read chunk => s.dropRead buffer chunk d
      | .readError => none
      | .outgoing => s.dropOutgoing d
      | .timer => s.dropTimer d T
    else none
  | none => none

/-- a step or a drop, smol/network.rs 68-216 -/
def step (s : SmolWire) : SmolWireOp → Option (SmolWire × List Obs)
  | .op op =>
    match s.net.step op with
    | some (net, obs) => let (wire, buffer) := advance s.wire s.buffer op obs; some (⟨net, wire, buffer⟩, obs)
    | none => none
  | .drop b d T => s.drop b d T
  | .dropConnect i d =>
    match s.net.dropConnect i d with
    | some (net, obs) => some ({ s with net := net }, obs)
    | none => none

/-- a history of smol/network.rs 68-216 -/
def runOps (s : SmolWire) (ops : List SmolWireOp) : SmolWire × List Obs := history step s ops

end SmolWire
end Mqrstt
