import Verif.Spec.Written
/-!
# Calls of `run` that stop part of the way through a turn

A turn of `run`'s loop handles one thing: a packet that has arrived, a packet from the queue, or the timer. Here: what it
means that a dropped call of `run` has done the first part of such a turn and nothing else.
-/

namespace Mqrstt.Spec

/-- The place in a turn where the future of `run` was dropped: `more` is what the turn would have shown from there on, `bytes`
is what has been written of the packet at hand. A packet that cannot be encoded may be abandoned before its first byte. -/
def TokioPlace (d : DropAt) (more : List Obs) (bytes : Bytes) : Prop :=
  match d with
  | .handling => bytes = [] ∧ ∃ p rest, more = .delivered p :: rest
  | .writing k =>
    (∃ p e f rest, more = .wrote p e f :: rest ∧ k ≤ (tokioBytes p).length ∧ bytes = (tokioBytes p).take k) ∨
    (∃ e, more = [.ended (.error (.serialization e))] ∧ k = 0 ∧ bytes = [])

/-- what a dropped call of `run` may have made of `s`: `n` and `seen ++ more` are what the whole turn makes of it -/
structure TokioPartway (s : TokioWire) (b : TokioBranch) (d : DropAt) (lost : Nat) (T : Times) (n : Tokio)
    (seen more : List Obs) (s' : TokioWire) (obs : List Obs) : Prop where
  /-- the whole turn -/
  turn : s.net.turn b lost true T = some (n, seen ++ more)
  /-- what the dropped call shows -/
  shown : obs = seen ++ [.cancelled]
  /-- what it has written -/
  wire : ∃ bytes, TokioPlace d more bytes ∧ s'.wire = s.wire ++ bytes
  /-- the connection is still there; what the turn has read has been taken from it -/
  input : ∃ c left, s.net.network = some c ∧ s'.net.network = some { c with input := left } ∧
    (b = .read → ∃ p, Packet.asyncRead c.input = .ok (p, left)) ∧ (b ≠ .read → left = c.input.drop lost)
  /-- what has arrived has been processed -/
  session : b ≠ .outgoing → s'.net.sys = n.sys
  /-- what was to be sent has left the queue, and that is all -/
  queue : b = .outgoing → ∃ p, s.net.sys = { s'.net.sys with queue := p :: s'.net.sys.queue }
  /-- `run` is over, the clock has gone on, everything else is as before -/
  rest : s'.net = { s.net with sys := s'.net.sys, network := s'.net.network, run := none, now := T.second }

/-- does the turn come to the point where smol writes its buffer: something is written, or a packet has been read and `run`
goes on -/
def SmolWrites (obs : List Obs) : Prop :=
  (∃ p a b, Obs.wrote p a b ∈ obs) ∨ ((∃ p, Obs.read p ∈ obs) ∧ ∀ e, Obs.ended e ∉ obs)

/-- the same for smol, which collects what it writes in a buffer: `buffer` is the buffer the writing began with, and all that
the turn writes is added to it -/
def SmolPlace (d : DropAt) (seen more : List Obs) (old bytes buffer : Bytes) : Prop :=
  match d with
  | .handling => bytes = [] ∧ buffer = old ∧ ∃ p rest, more = .delivered p :: rest
  | .writing k => SmolWrites (seen ++ more) ∧ writtenIn seen = [] ∧ (∀ p rest, more ≠ .read p :: rest) ∧
      (∀ p rest, more ≠ .delivered p :: rest) ∧ buffer = old ++ (writtenIn more).flatMap smolBytes ∧
      k ≤ buffer.length ∧ bytes = buffer.take k

structure SmolPartway (s : SmolWire) (b : SmolBranch) (d : DropAt) (T : Times) (n : Smol)
    (seen more : List Obs) (s' : SmolWire) (obs : List Obs) : Prop where
  turn : s.net.turn b true T = some (n, seen ++ more)
  shown : obs = seen ++ [.cancelled]
  wire : ∃ bytes, SmolPlace d seen more s.buffer bytes s'.buffer ∧ s'.wire = s.wire ++ bytes
  /-- the connection is still there; what the turn has read has been taken from it -/
  input : ∃ old left, s.net.network = some old ∧ s'.net.network = some left ∧
    (∀ chunk, b = .read chunk → ∃ p, SmolStream.parse s.net.checks (old ++ chunk) = .packet p left) ∧
    ((∀ chunk, b ≠ .read chunk) → left = old)
  session : b ≠ .outgoing → s'.net.sys = n.sys
  queue : b = .outgoing → ∃ p, s.net.sys = { s'.net.sys with queue := p :: s'.net.sys.queue }
  /-- a PINGRESP that the handler has seen counts, one it has not seen the end of does not -/
  await : (Obs.delivered .pingResp ∈ seen → s'.net.await = none) ∧ (Obs.delivered .pingResp ∉ seen → s'.net.await = s.net.await)
  rest : s'.net = { s.net with sys := s'.net.sys, network := s'.net.network, await := s'.net.await, running := false, now := T.second }

end Mqrstt.Spec
