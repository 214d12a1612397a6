import Verif.Proof.Patience
import Verif.Props.Bytes
import Verif.Props.Progress
/-! # Neither too patient nor too impatient with a server (C95) -/

namespace Mqrstt.Props
open Mqrstt Mqrstt.Spec _root_.Spec

/-- `connect` of tokio may be called, and the connection takes the CONNECT -/
structure CanConnectTokio (s : Tokio) (i : TokioConnect) : Prop where
  clock : i.times.ok s.now = true
  alive : s.sys.alive = true
  idle : s.run = none
  written : i.connectOk = true ∧ ∃ r, s.options.connectPacket.asyncWrite = .ok r

/-- **C95.** tokio: `connect` goes on waiting only while the connection is open and the answer is not complete, and not
if it begins with a byte no packet begins with; without having read a packet it reports an error only if the connection
was closed before the answer was complete, or if what has arrived can never become a packet. -/
theorem C95_connect_tokio (s : Tokio) (i : TokioConnect) (hs : CanConnectTokio s i) :
    (s.step (.connect i) = none → i.eof = false ∧ ¬ Whole StreamPacket i.bytes ∧
      ∀ v more, i.bytes = v :: more → ¬ BadFirstByte v) ∧
    (∀ s' obs e, s.step (.connect i) = some (s', obs) → .connectFailed e ∈ obs → (∀ p, .read p ∉ obs) →
      (i.eof = true ∧ ¬ Whole StreamPacket i.bytes) ∨ Hopeless StreamPacket i.bytes) := by
  obtain ⟨r, hr⟩ := hs.written.2
  have hw : Tokio.writePacket s.options.connectPacket i.connectOk = .ok () := by
    simp [Tokio.writePacket, hr, hs.written.1]
  have bad : ∀ v more, i.bytes = v :: more → BadFirstByte v → ∃ e, Packet.asyncRead i.bytes = .error (.de e) := by
    intro v more e hv
    rw [e]
    exact badFirst_stream hv more
  have incomplete : ∀ {e : Fail}, Packet.asyncRead i.bytes = .error e → ¬ Whole StreamPacket i.bytes := by
    rintro e he ⟨p, rest, hp⟩
    have hp : Packet.asyncRead i.bytes = .ok (p, rest) := hp
    rw [he] at hp
    cases hp
  simp only [Tokio.step, Tokio.connect, hs.clock, hs.alive, hs.idle, Option.isNone_none, Bool.and_self, if_true, hw]
  cases hread : Packet.asyncRead i.bytes with
  | ok x =>
    obtain ⟨p, rest⟩ := x
    constructor
    · intro h
      exfalso
      cases p <;> try (cases h; done)
      rename_i c
      simp only at h
      split at h
      · have ha := hs.alive
        rename_i hc
        have := Tokio.established_some (s := { s with now := i.times.second, run := none }) ha hc rest i
          ([.wrote s.options.connectPacket i.times.enter i.times.fire] ++ [.read (.connAck c)])
        obtain ⟨s', more, h'⟩ := this
        rw [h'] at h
        cases h
      · cases h
    · intro s' obs e h hf hn
      exfalso
      cases p <;> try (simp only [Option.some.injEq, Prod.mk.injEq] at h; obtain ⟨-, rfl⟩ := h; exact hn _ (by simp; rfl))
      rename_i c
      simp only at h
      split at h
      · rename_i hc
        have ha := hs.alive
        obtain ⟨s'', more, h'⟩ := Tokio.established_some (s := { s with now := i.times.second, run := none }) ha hc rest i
          ([.wrote s.options.connectPacket i.times.enter i.times.fire] ++ [.read (.connAck c)])
        rw [h'] at h
        cases h
        exact hn (.connAck c) (by simp)
      · simp only [Option.some.injEq, Prod.mk.injEq] at h
        obtain ⟨-, rfl⟩ := h
        exact hn (.connAck c) (by simp)
  | error er =>
    constructor
    · intro h
      cases er with
      | eof =>
        simp only at h
        split at h
        · cases h
        · rename_i he
          refine ⟨by simpa using he, incomplete hread, fun v more e hv => ?_⟩
          obtain ⟨e', he'⟩ := bad v more e hv
          rw [hread] at he'
          cases he'
      | _ => cases h
    · intro s' obs e h hf hn
      cases er with
      | de e => exact .inr (hopeless_stream hread)
      | eof =>
        simp only at h
        split at h
        · exact .inl ⟨‹_›, incomplete hread⟩
        · cases h
      | _ =>
        simp only [Option.some.injEq, Prod.mk.injEq] at h
        obtain ⟨-, rfl⟩ := h
        simp at hf

/-- no packet begins with the byte 0 -/
theorem zero_bad : BadFirstByte 0 := by
  intro t h
  cases t <;> exact absurd h.1 (by decide)

/-- half a CONNACK: `connect` waits, or fails if the connection is closed; a first byte of 0: `connect` fails at once -/
example : CanConnectTokio (Tokio.new fewIds 0) ⟨true, [0x20, 3, 0], false, fun _ => true, true, at' 1⟩ ∧
    (Tokio.new fewIds 0).step (.connect ⟨true, [0x20, 3, 0], false, fun _ => true, true, at' 1⟩) = none ∧
    (∃ s', (Tokio.new fewIds 0).step (.connect ⟨true, [0x20, 3, 0], true, fun _ => true, true, at' 1⟩) =
      some (s', [.wrote fewIds.connectPacket 1 1, .connectFailed .io])) ∧
    (∃ s', (Tokio.new fewIds 0).step (.connect ⟨true, [0], false, fun _ => true, true, at' 1⟩) =
      some (s', [.wrote fewIds.connectPacket 1 1, .connectFailed (.deserialization (.unknownFixedHeader 0))])) :=
  ⟨⟨rfl, rfl, rfl, rfl, _, rfl⟩, rfl, ⟨_, rfl⟩, ⟨_, rfl⟩⟩

/-- **C95.** smol: `connect` returns, at the latest when the connection is closed (a read returns nothing), or when two bytes have
arrived and no packet begins with the first; without having read a packet it reports an error only if the connection was closed, or
if what has arrived can never become a packet. -/
theorem C95_connect_smol (s : Smol) (i : SmolConnect) (hs : CanConnect s i) :
    ([] ∈ i.chunks → ∃ n, n ≤ i.chunks.length ∧ s.step (.connect { i with chunks := i.chunks.take n }) ≠ none) ∧
    (∀ v x more, i.chunks.flatten = v :: x :: more → BadFirstByte v →
      ∃ n s', n ≤ i.chunks.length ∧ s.step (.connect { i with chunks := i.chunks.take n }) =
        some (s', [.wrote s.options.connectPacket i.times.enter i.times.fire, .connectFailed .io])) ∧
    (∀ s' obs e, s.step (.connect i) = some (s', obs) → .connectFailed e ∈ obs → (∀ p, .read p ∉ obs) →
      [] ∈ i.chunks ∨ Hopeless BufferPacket i.chunks.flatten) := by
  obtain ⟨bs, hbs⟩ := hs.written.2
  have hw : Smol.writePacket s.options.connectPacket i.connectOk = .ok () := by
    simp [Smol.writePacket, hbs, hs.written.1]
  have ha := hs.alive
  refine ⟨fun h => ?_, fun v x more he hv => ?_, fun s' obs e h hf hn => ?_⟩
  · obtain ⟨n, hn, hr⟩ := SmolStream.read_ends s.checks i.chunks [] h
    refine ⟨n, hn, ?_⟩
    have hl : (i.chunks.take n).length = n := by rw [List.length_take]; omega
    have hr := hr (n + 1) (Nat.le_refl _)
    simp only [Smol.step, Smol.connect, hs.clock, ha, hs.idle, Bool.not_false, Bool.and_self, if_true, hw, hl]
    rcases hr with hr | hr | ⟨p, b, hr⟩
    · rw [hr]; simp
    · rw [hr]; simp
    · rw [hr]
      cases p <;> try (simp; done)
      rename_i c
      simp only
      split
      · rename_i hc
        obtain ⟨s', more, h'⟩ := Smol.established_some (s := { s with running := false, now := i.times.second }) ha hc b
          { i with chunks := i.chunks.take n }
          ([.wrote s.options.connectPacket i.times.enter i.times.fire] ++ [.read (.connAck c)])
        rw [h']
        simp
      · simp
  · obtain ⟨n, hn, hr⟩ := SmolStream.read_bad s.checks i.chunks v x more hv he
    have hl : (i.chunks.take n).length = n := by rw [List.length_take]; omega
    exact ⟨n, _, hn, by
      simp only [Smol.step, Smol.connect, hs.clock, ha, hs.idle, Bool.not_false, Bool.and_self, if_true, hw, hl, hr]; rfl⟩
  · simp only [Smol.step, Smol.connect, hs.clock, ha, hs.idle, Bool.not_false, Bool.and_self, if_true, hw] at h
    split at h
    · rename_i c b hr
      exfalso
      split at h
      · rename_i hc
        obtain ⟨s'', more, h'⟩ := Smol.established_some (s := { s with running := false, now := i.times.second }) ha hc b i
          ([.wrote s.options.connectPacket i.times.enter i.times.fire] ++ [.read (.connAck c)])
        rw [h'] at h
        cases h
        exact hn (.connAck c) (by simp)
      · cases h
        exact hn (.connAck c) (by simp)
    · rename_i p b _ hr
      cases h
      exact absurd (by simp) (hn p)
    · cases h
    · rename_i hr
      simpa using SmolStream.read_io hr
    · cases h
      simp at hf
    · cases h

example : CanConnect (Smol.new true fewIds 0) ⟨true, [[0x20], [3, 0]], true, at' 1⟩ ∧
    (Smol.new true fewIds 0).step (.connect ⟨true, [[0x20], [3, 0]], true, at' 1⟩) = none ∧
    (∃ s', (Smol.new true fewIds 0).step (.connect ⟨true, [[0x20], [3, 0], []], true, at' 1⟩) =
      some (s', [.wrote fewIds.connectPacket 1 1, .connectFailed .io])) ∧
    (∃ s', (Smol.new true fewIds 0).step (.connect ⟨true, [[0], [3]], true, at' 1⟩) =
      some (s', [.wrote fewIds.connectPacket 1 1, .connectFailed .io])) :=
  ⟨⟨rfl, rfl, rfl, rfl, _, rfl⟩, rfl, ⟨_, rfl⟩, ⟨_, rfl⟩⟩

/-- **C95.** tokio: a read in `run` goes on waiting only while the connection is open and no packet is complete; without having
read a packet it ends the run only if the connection was closed before a packet was complete, or if what has arrived can never become
a packet. -/
theorem C95_run_tokio (s : Tokio) (c : TokioConn) (await : Option Nat) (lost : Nat) (io : Bool) (T : Times)
    (hclock : T.ok s.now = true) (halive : s.sys.alive = true) (hn : s.network = some c) (hr : s.run = some await) :
    (s.step (.turn .read lost io T) = none → c.eof = false ∧ ¬ Whole StreamPacket c.input) ∧
    (∀ s' obs e, s.step (.turn .read lost io T) = some (s', obs) → .ended (.error e) ∈ obs → (∀ p, .read p ∉ obs) →
      (c.eof = true ∧ ¬ Whole StreamPacket c.input) ∨ Hopeless StreamPacket c.input) := by
  have incomplete : ∀ {e : Fail}, Packet.asyncRead c.input = .error e → ¬ Whole StreamPacket c.input := by
    rintro e he ⟨p, rest, hp⟩
    have hp : Packet.asyncRead c.input = .ok (p, rest) := hp
    rw [he] at hp
    cases hp
  simp only [Tokio.step, Tokio.turn, hn, hr, hclock, halive, Bool.and_self, if_true, Tokio.onRead]
  cases hread : Packet.asyncRead c.input with
  | ok x =>
    obtain ⟨p, rest⟩ := x
    constructor
    · intro h
      obtain ⟨s', obs, h'⟩ := Tokio.onPacket_some
        (s := { s with now := T.second, network := some { c with input := rest }, run := some await }) halive p io T
      simp only at h
      rw [h'] at h
      cases h
    · intro s' obs e h hf hno
      exact absurd (Tokio.onPacket_read h) (hno p)
  | error er =>
    constructor
    · intro h
      cases er with
      | eof =>
        simp only at h
        split at h
        · cases h
        · rename_i he
          exact ⟨by simpa using he, incomplete hread⟩
      | _ => cases h
    · intro s' obs e h hf hno
      cases er with
      | de e => exact .inr (hopeless_stream hread)
      | eof =>
        simp only at h
        split at h
        · exact .inl ⟨‹_›, incomplete hread⟩
        · cases h
      | _ =>
        cases h
        simp at hf

/-- half a publish; a packet that cannot be one -/
example : let s := tokio fewIds 0 (tokioUp ++ [.arrive [0x30, 5, 0]])
    let s2 := tokio fewIds 0 (tokioUp ++ [.arrive [0]])
    s.step (.turn .read 0 true (at' 2)) = none ∧ s.network = some ⟨[0x30, 5, 0], false⟩ ∧
    ∃ s', s2.step (.turn .read 0 true (at' 2)) = some (s', [.ended (.error (.deserialization (.unknownFixedHeader 0)))]) :=
  ⟨rfl, rfl, _, rfl⟩

/-- **C95.** smol: after a read in `run` that does not complete a packet the run goes on, unless the connection was closed (nothing was
read) or what has arrived can never become a packet. -/
theorem C95_run_smol (s s' : Smol) (buffer chunk : Bytes) (io : Bool) (T : Times) (obs : List Obs)
    (hn : s.network = some buffer) (h : s.step (.turn (.read chunk) io T) = some (s', obs)) (hno : ∀ p, .read p ∉ obs) :
    (∀ e, .ended (.error e) ∈ obs → chunk = [] ∨ Hopeless BufferPacket (buffer ++ chunk)) ∧
    (obs = [] → chunk ≠ [] ∧ ¬ Whole BufferPacket (buffer ++ chunk) ∧ s'.network = some (buffer ++ chunk)) := by
  simp only [Smol.step, Smol.turn, hn] at h
  split at h
  · simp only [Smol.onRead] at h
    split at h
    · rename_i hc
      cases h
      exact ⟨fun _ _ => .inl hc, fun h => by cases h⟩
    · rename_i hc
      split at h
      · cases h
      · split at h
        · exact absurd (Smol.onPacket_read h) (hno _)
        · rename_i hp
          cases h
          exact ⟨fun _ h => absurd h List.not_mem_nil, fun _ => ⟨hc, SmolStream.parse_insufficient hp, rfl⟩⟩
        · rename_i hp
          cases h
          exact ⟨fun _ _ => .inr (SmolStream.parse_failed hp), fun h => by cases h⟩
        · cases h
          exact ⟨fun _ h => by simp at h, fun h => by cases h⟩
  · cases h

example : let s := smol true fewIds 0 smolUp
    (∃ s', s.step (.turn (.read [0x30, 5, 0]) true (at' 2)) = some (s', []) ∧ s'.network = some [0x30, 5, 0]) ∧
    ∃ s', s.step (.turn (.read [0, 0]) true (at' 2)) = some (s', [.ended (.error (.deserialization (.unknownFixedHeader 0)))]) :=
  ⟨⟨_, rfl, rfl⟩, _, rfl⟩

end Mqrstt.Props
