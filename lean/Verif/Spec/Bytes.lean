import Verif.Spec.Network
/-!
# Bytes that arrive and packets that are processed

For the byte-level properties of the networks (C44, C45, C46, C51): what has arrived on the current connection and what
has been processed, computed from the steps of a history and what was observed in each.
-/

namespace Mqrstt.Spec

/-- the steps that took effect, each with what was observed -/
def log {S O : Type} (step : S → O → Option (S × List Obs)) (s : S) : List O → List (O × List Obs)
  | [] => []
  | op :: ops =>
    match step s op with
    | none => log step s ops
    | some (s', o) => (op, o) :: log step s' ops

/-- the current connection: the bytes that have arrived, the packets read, and how many bytes were taken by reads that were
then abandoned -/
structure Rx where
  bytes : Bytes
  packets : List Packet
  taken : Nat

def Rx.none : Rx := ⟨[], [], 0⟩

/-- did `connect` succeed -/
def hasConnected (obs : List Obs) : Bool := obs.any fun | .connected _ _ => true | _ => false

/-- smol: bytes arrive with every read -/
def smolRxStep (r : Rx) : SmolOp × List Obs → Rx
  | (.connect i, obs) => if hasConnected obs then ⟨i.chunks.flatten, readIn obs, 0⟩ else r
  | (.turn (.read chunk) _ _, obs) => { r with bytes := r.bytes ++ chunk, packets := r.packets ++ readIn obs }
  | (_, obs) => { r with packets := r.packets ++ readIn obs }

/-- tokio: bytes arrive by themselves; a branch other than reading abandons the read in progress -/
def tokioRxStep (r : Rx) : TokioOp × List Obs → Rx
  | (.connect i, obs) => if hasConnected obs then ⟨i.bytes, readIn obs, 0⟩ else r
  | (.arrive bs, obs) => { r with bytes := r.bytes ++ bs, packets := r.packets ++ readIn obs }
  | (.turn .outgoing lost _ _, obs) => { r with packets := r.packets ++ readIn obs, taken := r.taken + lost }
  | (.turn .timer lost _ _, obs) => { r with packets := r.packets ++ readIn obs, taken := r.taken + lost }
  | (.cancel lost, obs) => { r with packets := r.packets ++ readIn obs, taken := r.taken + lost }
  | (_, obs) => { r with packets := r.packets ++ readIn obs }

def smolRx (checks : Bool) (o : Options) (t : Nat) (ops : List SmolOp) : Rx :=
  (log Smol.step (Smol.new checks o t) ops).foldl smolRxStep Rx.none

def tokioRx (o : Options) (t : Nat) (ops : List TokioOp) : Rx :=
  (log Tokio.step (Tokio.new o t) ops).foldl tokioRxStep Rx.none

/-- the stream `bs` starts with these packets and `rest` follows; `R b p b'`: the bytes `b` start with the packet `p`, then
`b'` follows -/
inductive Stream (R : Bytes → Packet → Bytes → Prop) : Bytes → List Packet → Bytes → Prop where
  | nil (bs : Bytes) : Stream R bs [] bs
  | cons {bs bs' rest : Bytes} {p : Packet} {ps : List Packet} (h : R bs p bs') (hs : Stream R bs' ps rest) :
      Stream R bs (p :: ps) rest

/-- by the frames: the decoder for byte buffers -/
def BufferPacket (b : Bytes) (p : Packet) (b' : Bytes) : Prop := Packet.read b = (.ok p, b')

/-- by the decoder for streams -/
def StreamPacket (b : Bytes) (p : Packet) (b' : Bytes) : Prop := Packet.asyncRead b = .ok (p, b')

/-- every byte string decodes to its packet, to the last byte -/
def Encodings (R : Bytes → Packet → Bytes → Prop) (fs : List (Bytes × Packet)) : Prop := ∀ x ∈ fs, R x.1 x.2 []

/-- the chunks are divided after `n` bytes -/
def IsCut (chunks : List Bytes) (n : Nat) : Prop :=
  ∃ a b, chunks = a ++ b ∧ a ≠ [] ∧ b ≠ [] ∧ a.flatten.length = n

/-- a way of splitting a packet with a header of `hl` bytes and a body of `rem` bytes: it is divided only inside the header,
or after fewer bytes than the body is long; or else after just as many, if it is not divided anywhere from the end of the
header up to there -/
def GoodSplit (hl rem : Nat) (chunks : List Bytes) : Prop :=
  ∀ n, IsCut chunks n → n < hl ∨ n < rem ∨ (n = rem ∧ ∀ m, IsCut chunks m → m < hl ∨ rem ≤ m)

/-- the chunks bring `f`: none is empty, and the last one brings the end of `f`, perhaps with more -/
structure Brings (chunks : List Bytes) (f : Bytes) : Prop where
  nonempty : ∀ c ∈ chunks, c ≠ []
  whole : f <+: chunks.flatten
  last : ∀ n, IsCut chunks n → n < f.length

end Mqrstt.Spec
