import Verif.Proof.SmolConnect
import Verif.Props.Connecting
/-!
# From bytes to packets (C44, C45, C46, C51)

`smolRx` and `tokioRx` are what has arrived on the current connection and the packets read from it, from the CONNACK on.
-/

namespace Mqrstt.Props
open Mqrstt Mqrstt.Spec _root_.Spec

/-! ## C44 -/

/-- **C44.** smol: in every history the packets processed are the ones the bytes of the connection start with. -/
theorem C44_packets_of_stream (checks : Bool) (o : Options) (t : Nat) (ops : List SmolOp) :
    ∃ rest, Stream BufferPacket (smolRx checks o t ops).bytes (smolRx checks o t ops).packets rest := by
  obtain ⟨rest, h, -⟩ := Smol.rxed checks o t ops
  exact ⟨rest, h⟩

/-- **C44.** smol: while the server sends the packets of `fs` one after the other, however the bytes are split into reads and
whatever else the client does, the packets processed are the first ones of `fs`, in this order. -/
theorem C44_packets_sent (checks : Bool) (o : Options) (t : Nat) (ops : List SmolOp) (fs : List (Bytes × Packet))
    (hf : Encodings BufferPacket fs) (hb : (smolRx checks o t ops).bytes <+: (fs.map (·.1)).flatten) :
    (smolRx checks o t ops).packets <+: fs.map (·.2) := by
  obtain ⟨rest, h⟩ := C44_packets_of_stream checks o t ops
  exact h.prefix_of BufferPacket.more BufferPacket.fn BufferPacket.nil hf hb

/-- what a server sends: CONNACK, a publish, PINGRESP -/
def serverSends : List (Bytes × Packet) :=
  [(plainConnAck, .connAck ⟨false, .success, .empty⟩), ([0x32, 0x06, 0, 1, 97, 0, 1, 0], .publish netMessage),
   ([0xD0, 0], .pingResp)]

theorem serverSends_ok : Encodings BufferPacket serverSends := by
  intro x hx
  simp only [serverSends, List.mem_cons, List.not_mem_nil, or_false] at hx
  rcases hx with rfl | rfl | rfl <;> rfl

/-- the publish arrives in three pieces, with a write in between; the last piece brings half of the PINGRESP -/
def smolPieces : List SmolOp :=
  smolUp ++ [.turn (.read [0x32]) true (at' 2), .client (.call (netPublish [1])), .client (.submit 0),
    .turn .outgoing true (at' 3), .turn (.read [0x06, 0, 1, 97, 0]) true (at' 4), .turn (.read [1, 0, 0xD0]) true (at' 5)]

example : (smolRx true netOptions 0 smolPieces).bytes = (serverSends.map (·.1)).flatten.dropLast ∧
    (smolRx true netOptions 0 smolPieces).packets = [.connAck ⟨false, .success, .empty⟩, .publish netMessage] := by
  exact ⟨by decide +kernel, rfl⟩

/-! ## C45 -/

/-- **C45**, the part that holds: if the packets before it have been processed, a packet is processed in the very turn that
reads its last byte. Missing: when several packets arrive with one read only the first of them is processed. -/
theorem C45_processed_partial (checks : Bool) (o : Options) (t : Nat) (ops : List SmolOp) (fs : List (Bytes × Packet))
    (f : Bytes) (p : Packet) (chunk tail : Bytes) (io : Bool) (T : Times)
    (hf : Encodings BufferPacket (fs ++ [(f, p)]))
    (hb : (smolRx checks o t ops).bytes ++ chunk = ((fs ++ [(f, p)]).map (·.1)).flatten ++ tail)
    (hdone : (smolRx checks o t ops).packets = fs.map (·.2)) (hrun : isRunning (smolTrace checks o t ops) = true)
    (hclock : T.ok (smol checks o t ops).now = true) (hc : chunk ≠ []) (hl : chunk.length ≤ 4096) :
    ∃ s' obs, (smol checks o t ops).step (.turn (.read chunk) io T) = some (s', obs) ∧ readIn obs = [p] := by
  have hv := Smol.vrun checks o t ops
  have hr := hv.up.2.trans hrun
  obtain ⟨hlive, halive⟩ := hv.running hr
  have halive : (smol checks o t ops).sys.alive = true := halive
  have hlive : (smol checks o t ops).network.isSome = true := hlive
  have hr : (smol checks o t ops).running = true := hr
  obtain ⟨rest, h1, h2⟩ := Smol.rxed checks o t ops
  have hn : (smol checks o t ops).network = some rest := by
    rcases h2 with h | h
    · rw [h] at hlive; cases hlive
    · exact h
  have hs : Stream BufferPacket ((smolRx checks o t ops).bytes ++ chunk) (fs.map (·.2)) (rest ++ chunk) :=
    hdone ▸ h1.more BufferPacket.more
  have hs2 : Stream BufferPacket ((smolRx checks o t ops).bytes ++ chunk) (fs.map (·.2)) (f ++ tail) := by
    rw [hb]
    have := Encodings.stream BufferPacket.more (fun x hx => hf x (by simp [hx]) : Encodings BufferPacket fs) (f ++ tail)
    simpa using this
  have e := hs.unique BufferPacket.fn hs2
  have hp : BufferPacket (rest ++ chunk) p tail := by
    rw [e]
    simpa using BufferPacket.more _ _ _ tail (hf (f, p) (by simp))
  have hstep : (smol checks o t ops).step (.turn (.read chunk) io T) =
      ({ (smol checks o t ops) with now := T.second, network := some tail }).onPacket p io T := by
    simp only [Smol.step, Smol.turn, hn, hclock, halive, hr, Bool.and_self, if_true, Smol.onRead, if_neg hc,
      SmolStream.parse_of_packet hp]
    rw [if_neg (by omega)]
  obtain ⟨s', obs, h3⟩ := Smol.onPacket_some
    (s := { (smol checks o t ops) with now := T.second, network := some tail }) halive p io T
  exact ⟨s', obs, hstep.trans h3, (Smol.onPacket_took rfl _ _ h3).1⟩

/-- the last byte of the PINGRESP -/
example : ∃ s', (smol true netOptions 0 smolPieces).step (.turn (.read [0]) true (at' 6)) =
    some (s', [.read .pingResp, .delivered .pingResp]) := ⟨_, rfl⟩

/-- two PINGRESPs arrive with one read -/
def smolTwo : List SmolOp := smolUp ++ [.turn (.read [0xD0, 0, 0xD0, 0]) true (at' 2)]

/-- **C45 is false of the code**: two packets have arrived, one has been processed, and as long as no more bytes arrive the
other is not, whatever happens. The same for a packet that arrives together with the CONNACK. -/
theorem C45_processed_violated :
    (∀ ops, (∀ op ∈ ops, (∀ i, op ≠ .connect i) ∧ ∀ c io T, op ≠ .turn (.read c) io T) →
      (smolRx true netOptions 0 (smolTwo ++ ops)).bytes = plainConnAck ++ [0xD0, 0, 0xD0, 0] ∧
      (smolRx true netOptions 0 (smolTwo ++ ops)).packets = [.connAck ⟨false, .success, .empty⟩, .pingResp]) ∧
    (smolRx true netOptions 0 [.connect ⟨true, [plainConnAck ++ [0xD0, 0]], true, at' 1⟩, .start]).packets =
      [.connAck ⟨false, .success, .empty⟩] := by
  refine ⟨fun ops hops => ?_, rfl⟩
  have key : ∀ (ops : List SmolOp) (s : Smol) (r : Rx),
      (∀ op ∈ ops, (∀ i, op ≠ .connect i) ∧ ∀ c io T, op ≠ .turn (.read c) io T) →
      (log Smol.step s ops).foldl smolRxStep r = r := by
    intro ops
    induction ops with
    | nil => intro s r _; rfl
    | cons op ops ih =>
      intro s r h
      obtain ⟨h1, h2⟩ := h op (by simp)
      simp only [log]
      cases e : s.step op with
      | none => exact ih s r fun x hx => h x (by simp [hx])
      | some x =>
        obtain ⟨s', obs⟩ := x
        have hr := Smol.silent e h1 h2
        have : smolRxStep r (op, obs) = r := by
          cases op with
          | connect i => exact absurd rfl (h1 i)
          | turn b io T =>
            cases b with
            | read c => exact absurd rfl (h2 c io T)
            | _ => simp [smolRxStep, hr]
          | _ => simp [smolRxStep, hr]
        simp only [List.foldl_cons, this]
        exact ih s' r fun x hx => h x (by simp [hx])
  have e : smolRx true netOptions 0 (smolTwo ++ ops) = smolRx true netOptions 0 smolTwo := by
    simp only [smolRx, log_append, List.foldl_append]
    exact key ops _ _ hops
  rw [e]
  exact ⟨by decide +kernel, rfl⟩

/-! ## C46 -/

/-- **C46**, the part that holds: if on this connection no read was abandoned with bytes in hand, the packets processed are
the ones the bytes of the connection start with. Missing: a read that has taken part of a packet is dropped when another
branch of the loop completes, and these bytes are gone. -/
theorem C46_packets_of_stream_partial (o : Options) (t : Nat) (ops : List TokioOp) (h : (tokioRx o t ops).taken = 0) :
    ∃ rest, Stream StreamPacket (tokioRx o t ops).bytes (tokioRx o t ops).packets rest := by
  obtain ⟨rest, h, -⟩ := Tokio.rxed o t ops h
  exact ⟨rest, h⟩

/-- and while the server sends the packets of `fs` one after the other, they are the first ones of `fs`, in this order -/
theorem C46_packets_sent_partial (o : Options) (t : Nat) (ops : List TokioOp) (h : (tokioRx o t ops).taken = 0)
    (fs : List (Bytes × Packet)) (hf : Encodings StreamPacket fs)
    (hb : (tokioRx o t ops).bytes <+: (fs.map (·.1)).flatten) : (tokioRx o t ops).packets <+: fs.map (·.2) := by
  obtain ⟨rest, h⟩ := C46_packets_of_stream_partial o t ops h
  exact h.prefix_of StreamPacket.more StreamPacket.fn StreamPacket.nil hf hb

/-- the reading under way is abandoned with this many bytes in hand -/
def abandons (lost : Nat) : TokioOp → Bool
  | .turn .outgoing k _ _ | .turn .timer k _ _ | .cancel k => k = lost
  | _ => false

/-- and what is lost with an abandoned read is never a whole packet -/
theorem C46_only_incomplete_lost_partial (o : Options) (t : Nat) (ops : List TokioOp) (h : (tokioRx o t ops).taken = 0) (op : TokioOp)
    (lost : Nat) (hop : abandons lost op = true) (s' : Tokio) (obs : List Obs) (hs : (tokio o t ops).step op = some (s', obs)) :
    ∃ rest, Stream StreamPacket (tokioRx o t ops).bytes (tokioRx o t ops).packets rest ∧ lost ≤ rest.length ∧
      ∀ p b', ¬ StreamPacket (rest.take lost) p b' := by
  obtain ⟨rest, h1, h2⟩ := Tokio.rxed o t ops h
  refine ⟨rest, h1, ?_⟩
  have key : ∃ c, (tokio o t ops).network = some c ∧ Tokio.canLose c lost = true := by
    cases op with
    | cancel k =>
      have : k = lost := by simpa [abandons] using hop
      subst this
      simp only [Tokio.step] at hs
      split at hs
      · rename_i c _ hn
        split at hs
        · rename_i hl; exact ⟨c, hn, hl⟩
        · simp at hs
      · simp at hs
    | turn b k io T =>
      have hk : k = lost ∧ (b = .outgoing ∨ b = .timer) := by
        cases b <;> simp [abandons] at hop <;> simp [hop]
      obtain ⟨rfl, hb⟩ := hk
      simp only [Tokio.step, Tokio.turn] at hs
      split at hs
      · rename_i c _ hn
        split at hs
        · rcases hb with rfl | rfl
          · simp only at hs
            split at hs
            · rename_i hl; exact ⟨c, hn, hl⟩
            · simp at hs
          · simp only at hs
            split at hs
            · rename_i hl; exact ⟨c, hn, hl⟩
            · simp at hs
        · simp at hs
      · simp at hs
    | _ => simp [abandons] at hop
  obtain ⟨c, hn, hl⟩ := key
  rcases h2 with h2 | ⟨eof, h2⟩
  · rw [hn] at h2; simp at h2
  · rw [hn] at h2
    obtain rfl := Option.some.inj h2
    simp only [Tokio.canLose, Bool.and_eq_true, decide_eq_true_eq] at hl
    refine ⟨hl.1, fun p b' hp => ?_⟩
    have hl2 := hl.2
    rw [show Packet.asyncRead (rest.take lost) = .ok (p, b') from hp] at hl2
    simp at hl2

/-- and a packet whose bytes have all arrived can be processed at once if the ones before have been -/
theorem C46_processed_partial (o : Options) (t : Nat) (ops : List TokioOp) (h : (tokioRx o t ops).taken = 0)
    (fs : List (Bytes × Packet)) (f : Bytes) (p : Packet) (tail : Bytes) (lost : Nat) (io : Bool) (T : Times)
    (hf : Encodings StreamPacket (fs ++ [(f, p)]))
    (hb : (tokioRx o t ops).bytes = ((fs ++ [(f, p)]).map (·.1)).flatten ++ tail)
    (hdone : (tokioRx o t ops).packets = fs.map (·.2)) (hrun : isRunning (tokioTrace o t ops) = true)
    (hclock : T.ok (tokio o t ops).now = true) :
    ∃ s' obs, (tokio o t ops).step (.turn .read lost io T) = some (s', obs) ∧ readIn obs = [p] := by
  have hv := Tokio.vrun o t ops
  have hr := hv.up.2.trans hrun
  obtain ⟨hlive, halive⟩ := hv.running hr
  have halive : (tokio o t ops).sys.alive = true := halive
  have hlive : (tokio o t ops).network.isSome = true := hlive
  have hr : (tokio o t ops).run.isSome = true := hr
  obtain ⟨rest, h1, h2⟩ := Tokio.rxed o t ops h
  obtain ⟨eof, hn⟩ : ∃ eof, (tokio o t ops).network = some ⟨rest, eof⟩ := by
    rcases h2 with h | h
    · rw [h] at hlive; cases hlive
    · exact h
  obtain ⟨aw, hr⟩ := Option.isSome_iff_exists.1 hr
  have hs2 : Stream StreamPacket (tokioRx o t ops).bytes (fs.map (·.2)) (f ++ tail) := by
    rw [hb]
    have := Encodings.stream StreamPacket.more (fun x hx => hf x (by simp [hx]) : Encodings StreamPacket fs) (f ++ tail)
    simpa using this
  have e := (hdone ▸ h1).unique StreamPacket.fn hs2
  have hp : Packet.asyncRead rest = .ok (p, tail) := by
    rw [e]
    exact StreamPacket.more _ _ _ tail (hf (f, p) (by simp))
  have hstep : (tokio o t ops).step (.turn .read lost io T) =
      ({ (tokio o t ops) with now := T.second, network := some ⟨tail, eof⟩ }).onPacket p io T := by
    simp only [Tokio.step, Tokio.turn, hn, hr, hclock, halive, Bool.and_self, if_true, Tokio.onRead, hp]
  obtain ⟨s', obs, h3⟩ := Tokio.onPacket_some
    (s := { (tokio o t ops) with now := T.second, network := some ⟨tail, eof⟩ }) halive p io T
  exact ⟨s', obs, hstep.trans h3, (Tokio.onPacket_took (c := ⟨tail, eof⟩) rfl _ _ h3).1⟩

theorem serverSends_ok_tokio : Encodings StreamPacket serverSends := by
  intro x hx
  simp only [serverSends, List.mem_cons, List.not_mem_nil, or_false] at hx
  rcases hx with rfl | rfl | rfl <;> rfl

/-- everything arrives in pieces; a write in between abandons a read that has nothing yet -/
def tokioPieces : List TokioOp :=
  tokioUp ++ [.arrive [0x32], .arrive [0x06, 0, 1, 97, 0], .client (.call (netPublish [1])), .client (.submit 0),
    .turn .outgoing 0 true (at' 3), .arrive [1, 0, 0xD0], .turn .read 0 true (at' 4), .arrive [0]]

example : (tokioRx netOptions 0 tokioPieces).bytes = (serverSends.map (·.1)).flatten ∧
    (tokioRx netOptions 0 tokioPieces).packets = [.connAck ⟨false, .success, .empty⟩, .publish netMessage] ∧
    (tokioRx netOptions 0 tokioPieces).taken = 0 ∧
    ∃ s', (tokio netOptions 0 tokioPieces).step (.turn .read 0 true (at' 6)) =
      some (s', [.read .pingResp, .delivered .pingResp]) := by
  exact ⟨by decide +kernel, rfl, rfl, _, rfl⟩

/-- a publish whose payload is the bytes `D0 00`, sent by the server in two pieces; the client publishes in between -/
def tokioCut : List TokioOp :=
  tokioUp ++ [.arrive [0x30, 0x06, 0, 1, 97, 0], .client (.call (netPublish [1])), .client (.submit 0),
    .turn .outgoing 6 true (at' 3), .arrive [0xD0, 0], .turn .read 0 true (at' 4)]

/-- **C46 is false of the code**: the server has sent a CONNACK and a publish; the client processes the CONNACK and a
PINGRESP that was never sent. -/
theorem C46_packets_violated :
    ∃ fs, Encodings StreamPacket fs ∧ (tokioRx netOptions 0 tokioCut).bytes = (fs.map (·.1)).flatten ∧
      fs.map (·.2) = [.connAck ⟨false, .success, .empty⟩, netPublished [0xD0, 0]] ∧
      (tokioRx netOptions 0 tokioCut).packets = [.connAck ⟨false, .success, .empty⟩, .pingResp] := by
  refine ⟨[(plainConnAck, .connAck ⟨false, .success, .empty⟩), ([0x30, 0x06, 0, 1, 97, 0, 0xD0, 0], netPublished [0xD0, 0])],
    ?_, by decide +kernel, rfl, rfl⟩
  intro x hx
  simp only [List.mem_cons, List.not_mem_nil, or_false] at hx
  rcases hx with rfl | rfl <;> rfl

/-- the same publish; in between `run` is dropped and called again -/
def tokioDropped : List TokioOp :=
  tokioUp ++ [.arrive [0x30, 0x06, 0, 1, 97, 0], .cancel 6, .start, .arrive [0xD0, 0], .turn .read 0 true (at' 4)]

/-- **C46 is false of the code**, also if nothing is sent: dropping `run`, for a timeout say, has the same effect. -/
theorem C46_dropped_run_violated :
    ∃ fs, Encodings StreamPacket fs ∧ (tokioRx netOptions 0 tokioDropped).bytes = (fs.map (·.1)).flatten ∧
      fs.map (·.2) = [.connAck ⟨false, .success, .empty⟩, netPublished [0xD0, 0]] ∧
      (tokioRx netOptions 0 tokioDropped).packets = [.connAck ⟨false, .success, .empty⟩, .pingResp] := by
  refine ⟨[(plainConnAck, .connAck ⟨false, .success, .empty⟩), ([0x30, 0x06, 0, 1, 97, 0, 0xD0, 0], netPublished [0xD0, 0])],
    ?_, by decide +kernel, rfl, rfl⟩
  intro x hx
  simp only [List.mem_cons, List.not_mem_nil, or_false] at hx
  rcases hx with rfl | rfl <;> rfl

/-! ## C51 -/

/-- `connect` may be called, and the connection takes the CONNECT -/
structure CanConnect (s : Smol) (i : SmolConnect) : Prop where
  clock : i.times.ok s.now = true
  alive : s.sys.alive = true
  idle : s.running = false
  written : i.connectOk = true ∧ ∃ bs, s.options.connectPacket.write = .ok bs

/-- **C51**, the part that holds: if the bytes of the answer are divided only in good places, `connect` reads exactly this
answer. Missing: all other ways of splitting it. -/
theorem C51_split_partial (s : Smol) (i : SmolConnect) (first : UInt8) (len body : Bytes) (c : ConnAck) (hs : CanConnect s i)
    (hv : IsVbi len) (hb : vbiValue len = body.length) (hp : BufferPacket (first :: (len ++ body)) (.connAck c) [])
    (hc : c.reason = .success) (hbr : Brings i.chunks (first :: (len ++ body)))
    (hg : GoodSplit (1 + len.length) body.length i.chunks) :
    ∃ s' more, s.step (.connect i) =
      some (s', [.wrote s.options.connectPacket i.times.enter i.times.fire, .read (.connAck c)] ++ more) := by
  obtain ⟨bs, hbs⟩ := hs.written.2
  have hi := SmolStream.Incoming.of_frame hv hb hp
  obtain ⟨extra, hw⟩ := hbr.whole
  have hr := SmolStream.read_good s.checks hi (i.chunks.length + 1) [] i.chunks extra (Nat.le_refl _) hbr.nonempty
    (by simpa using hw.symm) (fun n hn => SmolStream.cutsAt_nil (by simp) hbr.last hn)
    ((SmolStream.goodFrom_nil (by omega)).2 hg)
  have hwp : Smol.writePacket s.options.connectPacket i.connectOk = .ok () := by
    simp [Smol.writePacket, hbs, hs.written.1]
  have ha := hs.alive
  simp only [Smol.step, Smol.connect, hs.clock, ha, hs.idle, Bool.not_false, Bool.and_self, if_true, hwp, hr, hc]
  exact Smol.established_some (s := { s with running := false, now := i.times.second }) ha hc extra i
    [.wrote s.options.connectPacket i.times.enter i.times.fire, .read (.connAck c)]

/-- and with overflow checks these are the only ways of splitting it with which `connect` reads anything -/
theorem C51_only_good_splits (s s' : Smol) (i : SmolConnect) (first : UInt8) (len body : Bytes) (c : ConnAck) (obs : List Obs)
    (p : Packet) (hchecks : s.checks = true) (hv : IsVbi len) (hb : vbiValue len = body.length)
    (hp : BufferPacket (first :: (len ++ body)) (.connAck c) []) (hbr : Brings i.chunks (first :: (len ++ body)))
    (h : s.step (.connect i) = some (s', obs)) (hr : .read p ∈ obs) : GoodSplit (1 + len.length) body.length i.chunks := by
  obtain ⟨q, b, hd⟩ := Smol.connect_read h hr
  rw [hchecks] at hd
  obtain ⟨extra, hw⟩ := hbr.whole
  exact (SmolStream.goodFrom_nil (by omega)).1 (SmolStream.read_good_of_done (SmolStream.Incoming.of_frame hv hb hp) _ [] i.chunks
    extra b hbr.nonempty (by simpa using hw.symm) (fun n hn => SmolStream.cutsAt_nil (by simp) hbr.last hn) hd)

/-- the CONNACK in pieces of 1, 1 and 3 bytes -/
def goodPieces : SmolConnect := ⟨true, [[0x20], [0x03], [0x00, 0x00, 0x00]], true, at' 1⟩

theorem goodPieces_cuts (n : Nat) (h : IsCut goodPieces.chunks n) : n = 1 ∨ n = 2 := by
  obtain ⟨a, b, e, ha, hb, hn⟩ := h
  match a, e with
  | [], _ => exact absurd rfl ha
  | [_], e => simp [goodPieces] at e; obtain ⟨rfl, -⟩ := e; simp at hn; omega
  | [_, _], e => simp [goodPieces] at e; obtain ⟨rfl, rfl, -⟩ := e; simp at hn; omega
  | [_, _, _], e => simp [goodPieces] at e; exact absurd e.2.2.2 hb
  | _ :: _ :: _ :: _ :: _, e => simp [goodPieces] at e

example : Brings goodPieces.chunks plainConnAck ∧ GoodSplit 2 3 goodPieces.chunks ∧
    CanConnect (Smol.new true netOptions 0) goodPieces ∧ BufferPacket plainConnAck (.connAck ⟨false, .success, .empty⟩) [] ∧
    ((Smol.new true netOptions 0).step (.connect goodPieces)).map Prod.snd =
      some [.wrote netOptions.connectPacket 1 1, .read (.connAck ⟨false, .success, .empty⟩),
        .delivered (.connAck ⟨false, .success, .empty⟩), .connected ⟨false, .success, .empty⟩ 1] := by
  refine ⟨⟨by decide, ⟨[], rfl⟩, fun n hn => ?_⟩, fun n hn => ?_, ⟨rfl, rfl, rfl, rfl, _, rfl⟩, rfl, rfl⟩
  · rcases goodPieces_cuts n hn with rfl | rfl <;> decide
  · rcases goodPieces_cuts n hn with rfl | rfl
    · exact .inl (by omega)
    · exact .inr (.inl (by omega))

/-- **C51 is false of the code**: an ordinary CONNACK in pieces of 3, 1 and 1 bytes makes `connect` panic; in pieces of 4 and
1 bytes it panics if overflow checks are on, and otherwise never returns unless the server closes the connection: no
further piece of any length that can occur ends the waiting. -/
theorem C51_split_violated :
    (∀ checks, ((Smol.new checks netOptions 0).step (.connect ⟨true, [[0x20, 3, 0], [0], [0]], true, at' 1⟩)).map Prod.snd =
        some [.wrote netOptions.connectPacket 1 1, .connectPanicked]) ∧
    ((Smol.new true netOptions 0).step (.connect ⟨true, [[0x20, 3, 0, 0]], true, at' 1⟩)).map Prod.snd =
      some [.wrote netOptions.connectPacket 1 1, .connectPanicked] ∧
    (∀ chunks : List Bytes, (∀ c ∈ chunks, c ≠ []) → chunks.flatten.length < 2 ^ 64 - 1 →
      (Smol.new false netOptions 0).step (.connect ⟨true, [0x20, 3, 0, 0] :: chunks, true, at' 1⟩) = none) := by
  refine ⟨fun checks => ?_, rfl, fun chunks hne hl => ?_⟩
  · cases checks <;> rfl
  · have hr : SmolStream.read false (chunks.length + 1 + 1) [] ([0x20, 3, 0, 0] :: chunks) = .waiting := by
      have h1 : FixedHeader.read [] = .error (.insufficientBytes 2) := rfl
      have h2 : FixedHeader.read [0x20, 3, 0, 0] = .ok (⟨.connAck, 0, 3⟩, 2) := rfl
      have h3 : SmolStream.readRequired 2 0 [] ([0x20, 3, 0, 0] :: chunks) = .done ([0x20, 3, 0, 0], chunks) := rfl
      have h4 : usizeSub false 3 4 = some (2 ^ 64 - 1) := rfl
      have h5 : SmolStream.readRequired (2 ^ 64 - 1) 0 [0x20, 3, 0, 0] chunks = .waiting := by
        rcases SmolStream.readRequired_spec (2 ^ 64 - 1) chunks hne 0 [0x20, 3, 0, 0] with ⟨h, -⟩ | ⟨used, last, rest, rfl, -, h, -⟩
        · exact h
        · exfalso
          simp at h hl
          omega
      simp only [SmolStream.read, h1, h3, h2]
      rw [if_pos (by simp)]
      simp only [List.length_cons, List.length_nil, h4, h5]
    have hw : Smol.writePacket netOptions.connectPacket true = .ok () := rfl
    simp only [Smol.step, Smol.connect, Smol.new, List.length_cons, hr, hw]
    rfl

end Mqrstt.Props
