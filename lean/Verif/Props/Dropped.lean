import Verif.Proof.Cuts
/-!
# What is on the wire, and what becomes of it when `run` is dropped (C79)
-/

namespace Mqrstt.Props
open Mqrstt Mqrstt.Spec _root_.Spec

/-- tokio after a history in which `run` may be dropped anywhere -/
def tokioWire (o : Options) (t : Nat) (ops : List TokioWireOp) : TokioWire := ((TokioWire.new o t).runOps ops).1
def tokioWireTrace (o : Options) (t : Nat) (ops : List TokioWireOp) : List Obs := ((TokioWire.new o t).runOps ops).2
def smolWire (checks : Bool) (o : Options) (t : Nat) (ops : List SmolWireOp) : SmolWire := ((SmolWire.new checks o t).runOps ops).1
def smolWireTrace (checks : Bool) (o : Options) (t : Nat) (ops : List SmolWireOp) : List Obs :=
  ((SmolWire.new checks o t).runOps ops).2

/-- C70's conditions: legal options, legal calls, a server that uses legal identifiers -/
structure LegalUse (clientId : Str) (calls : List Setter) (tr : List Obs) : Prop where
  options : ∀ c, (Options.build clientId calls).connectPacket = .connect c → LegalConnect c
  requests : ∀ q id p, .user (.called q id p) ∈ tr → LegalRequest q ∧
    ∀ r P, q = .disconnect r P → (Packet.disconnect ⟨r, P⟩).bodyWireLen ≤ 268435455
  server : ∀ p, .read p ∈ tr → IdentNonzero p

/-- **C79 (partial).** As long as the future of `run` is not dropped while it writes, the bytes on the newest connection are
the packets written, whole and one after the other, and a server can find no other packets in them. (The smol network; tokio
if the retransmissions after a reconnect can be written, C52.) Missing: `run` dropped while it writes. -/
theorem C79_whole_packets_partial (clientId : Str) (calls : List Setter) (t : Nat) :
    (∀ ops : List TokioWireOp, LegalUse clientId calls (tokioWireTrace (Options.build clientId calls) t ops) →
      (∀ i, .op (.connect i) ∈ ops → ∀ n, i.resendOk n = true) → (∀ op ∈ ops, tokioCutsWrite op = false) → ∀ qs,
      (WireIs (tokioWire (Options.build clientId calls) t ops).wire qs ↔
        qs = tokioSent (Options.build clientId calls) t ops)) ∧
    (∀ checks, ∀ ops : List SmolWireOp, LegalUse clientId calls (smolWireTrace checks (Options.build clientId calls) t ops) →
      (∀ op ∈ ops, smolCutsWrite op = false) → ∀ qs,
      (WireIs (smolWire checks (Options.build clientId calls) t ops).wire qs ↔
        qs = smolSent checks (Options.build clientId calls) t ops)) := by
  constructor
  · intro ops hl _ hd qs
    obtain ⟨h1, h2, -⟩ := tokio_wire_history hl.options ops (.new (Options.build clientId calls) t) [] (.init _) (.refl _) (by simp)
      hl.requests
    have h : WireIs (tokioWire (Options.build clientId calls) t ops).wire (tokioSent (Options.build clientId calls) t ops) := by
      rw [tokioWire, h1 rfl hd]
      exact wireIs_of fun p hp => (h2 p hp).1
    exact ⟨fun h' => wireIs_unique h' h, fun h' => h' ▸ h⟩
  · intro checks ops hl hd qs
    obtain ⟨h1, h2, -⟩ := smol_wire_history hl.options ops (.new checks (Options.build clientId calls) t) [] [] (.init _)
      ⟨rfl, by simp [SmolWire.new, Smol.new]⟩ (.refl _) (by simp) (by simp) rfl hl.requests
    have h : WireIs (smolWire checks (Options.build clientId calls) t ops).wire
        (smolSent checks (Options.build clientId calls) t ops) := by
      rw [smolWire, h1 rfl rfl hd]
      exact wireIs_of fun p hp => (h2 p hp).2
    exact ⟨fun h' => wireIs_unique h' h, fun h' => h' ▸ h⟩

/-- C66's story, a message of QoS 2 sent again after a reconnect, meets the conditions; the newest connection carries CONNECT,
the copy and PUBREL -/
theorem onceOps_legal : LegalUse ⟨[97], by decide⟩ [.keepAlive (fromSecs 10), .cleanStart false, .receiveMax 4, .sendMax 4]
    (tokioWireTrace resumeOptions 0 (onceOps.map .op)) :=
  ⟨onceTrace_legal.2.1, onceTrace_legal.2.2.1, onceTrace_legal.2.2.2⟩

example : LegalUse ⟨[97], by decide⟩ [.keepAlive (fromSecs 10), .cleanStart false, .receiveMax 4, .sendMax 4]
      (tokioWireTrace resumeOptions 0 (onceOps.map .op)) ∧
    (tokioSent resumeOptions 0 (onceOps.map .op)).map (·.type) = [.connect, .publish, .pubRel] ∧
    (tokioWire resumeOptions 0 (onceOps.map .op)).wire.length = 34 :=
  ⟨onceOps_legal, rfl, rfl⟩

/-- **C79 (partial), on the way.** Whatever initial part of these bytes has arrived, the server finds an initial part of the
packets written. -/
theorem C79_arrived_prefix_partial (clientId : Str) (calls : List Setter) (t : Nat) :
    (∀ ops : List TokioWireOp, LegalUse clientId calls (tokioWireTrace (Options.build clientId calls) t ops) →
      (∀ i, .op (.connect i) ∈ ops → ∀ n, i.resendOk n = true) → (∀ op ∈ ops, tokioCutsWrite op = false) → ∀ k qs rest,
      Stream OnWire ((tokioWire (Options.build clientId calls) t ops).wire.take k) qs rest →
        qs <+: tokioSent (Options.build clientId calls) t ops) ∧
    (∀ checks, ∀ ops : List SmolWireOp, LegalUse clientId calls (smolWireTrace checks (Options.build clientId calls) t ops) →
      (∀ op ∈ ops, smolCutsWrite op = false) → ∀ k qs rest,
      Stream OnWire ((smolWire checks (Options.build clientId calls) t ops).wire.take k) qs rest →
        qs <+: smolSent checks (Options.build clientId calls) t ops) :=
  ⟨fun ops hl hr hd k _ _ h =>
      wireIs_prefix (((C79_whole_packets_partial clientId calls t).1 ops hl hr hd _).2 rfl) k h,
    fun checks ops hl hd k _ _ h =>
      wireIs_prefix (((C79_whole_packets_partial clientId calls t).2 checks ops hl hd _).2 rfl) k h⟩

/-- 25 of the 34 bytes: the CONNECT and a part of the copy -/
example : ∃ rest, Stream OnWire ((tokioWire resumeOptions 0 (onceOps.map .op)).wire.take 25) [resumeOptions.connectPacket] rest ∧
    rest.length = 6 := by
  have e : ∃ a b c d e f, (tokioWire resumeOptions 0 (onceOps.map .op)).wire.take 25 =
      tokioBytes resumeOptions.connectPacket ++ [a, b, c, d, e, f] := ⟨_, _, _, _, _, _, rfl⟩
  obtain ⟨a, b, c, d, e, f, h⟩ := e
  rw [h]
  refine ⟨_, .cons ⟨_, rfl, ?_⟩ (.nil _), rfl⟩
  exact (sameOptions_fine onceOps_legal.options (.refl _) rfl).says.1

/-! ## `run` dropped in the middle -/

/-- a connection, and a message to `t` in the queue -/
def tokioReady (q : QoS) : List TokioWireOp :=
  (tokioUp ++ [.client (.call (demoPublish q)), .client (.submit 0)] : List TokioOp).map .op
def smolReady (q : QoS) : List SmolWireOp :=
  (smolUp ++ [.client (.call (demoPublish q)), .client (.submit 0)] : List SmolOp).map .op

/-- `run` is called again, and the user disconnects -/
def tokioBye : List TokioWireOp :=
  ([.start, .client (.call (.disconnect .normalDisconnection .empty)), .client (.submit 0), .turn .outgoing 0 true (at' 3)] : List TokioOp).map .op
def smolBye : List SmolWireOp :=
  ([.start, .client (.call (.disconnect .normalDisconnection .empty)), .client (.submit 0), .turn .outgoing true (at' 3)] : List SmolOp).map .op

/-- the message as it is written -/
def demoMessage (q : QoS) (id : Option UInt16) (payload : Bytes) : Packet :=
  .publish ⟨false, q, false, ⟨[116], by decide⟩, id, .empty, payload⟩

def bye : Packet := .disconnect ⟨.normalDisconnection, .empty⟩

/-- `f` is what tokio writes for the packet -/
theorem fine_says {p : Packet} {f : Bytes} {n : Nat} (h : Fine p) (e : p.asyncWrite = .ok (f, n)) : PacketSays p f := by
  obtain ⟨-, bs, m, e', hs⟩ := h.written
  rw [e] at e'
  cases e'
  exact hs

def connectBytes : Bytes := [16, 17, 0, 4, 77, 81, 84, 84, 5, 0, 0, 10, 3, 33, 0, 4, 0, 1, 97]

theorem connect_says : PacketSays resumeOptions.connectPacket connectBytes := by
  have h : PacketSays resumeOptions.connectPacket (tokioBytes resumeOptions.connectPacket) := by
    obtain ⟨-, -, -, bs, n, e, hs⟩ := C70_wire_legal ⟨[97], by decide⟩ [.keepAlive (fromSecs 10), .cleanStart false, .receiveMax 4, .sendMax 4]
      onceTrace onceTrace_legal.1 onceTrace_legal.2.1 onceTrace_legal.2.2.1 onceTrace_legal.2.2.2 resumeOptions.connectPacket 1 1
      (.head _)
    have e' : tokioBytes resumeOptions.connectPacket = bs := by
      unfold tokioBytes
      change resumeOptions.connectPacket.asyncWrite = _ at e
      rw [e]
    rw [e']
    exact hs
  exact h

theorem bye_says : PacketSays bye [224, 0] :=
  fine_says (n := 2) (Legal.fine (p := bye) ⟨by decide, empty_legal _⟩ (by decide)) rfl

theorem qos0_says (a b c : UInt8) {f : Bytes} {n : Nat} (e : (demoMessage .atMostOnce none [a, b, c]).asyncWrite = .ok (f, n)) :
    PacketSays (demoMessage .atMostOnce none [a, b, c]) f :=
  fine_says (Legal.fine (p := demoMessage .atMostOnce none [a, b, c])
    ⟨⟨(by decide : (0 : UInt8) ∉ [116]), (by decide : (0x23 : UInt8) ∉ [116]), (by decide : (0x2B : UInt8) ∉ [116])⟩,
      fun h => (by cases h), fun h => (by cases h), rfl, ⟨(by decide : [(116 : UInt8)].length ≤ 65535), by simp, empty_legal _⟩⟩
    (by decide : 7 ≤ 268435455)) e

theorem wireIs_cons {p : Packet} {ps : List Packet} {f bs : Bytes} (h : PacketSays p f) (hs : WireIs bs ps) :
    WireIs (f ++ bs) (p :: ps) := .cons ⟨f, rfl, h⟩ hs

/-- **C79, violated: tokio.** (1) A message to `t` with the payload 1 2 3 is being written when the future of `run` is dropped;
`run` is called again and the user disconnects. The server reads a message with the payload 1 224 0, which nobody has sent, and
no DISCONNECT. (2) A message of QoS 1 is dropped before its first byte. It is on no connection, neither this one nor, though the
session is resumed, the next. -/
theorem C79_tokio_violated :
    (∃ ops : List TokioWireOp,
      WireIs (tokioWire resumeOptions 0 ops).wire [resumeOptions.connectPacket, demoMessage .atMostOnce none [1, 224, 0]] ∧
      submittedIn (tokioWireTrace resumeOptions 0 ops) = [demoMessage .atMostOnce none [1, 2, 3], bye]) ∧
    (∃ ops again : List TokioWireOp,
      WireIs (tokioWire resumeOptions 0 ops).wire [resumeOptions.connectPacket, bye] ∧
      submittedIn (tokioWireTrace resumeOptions 0 ops) = [demoMessage .atLeastOnce (some 1) [1, 2, 3], bye] ∧
      (∃ c t, tokioWireTrace resumeOptions 0 (ops ++ again) = tokioWireTrace resumeOptions 0 ops ++
        [.wrote resumeOptions.connectPacket 4 4, .read (.connAck c), .delivered (.connAck c), .connected c t] ∧
        c.sessionPresent = true) ∧
      WireIs (tokioWire resumeOptions 0 (ops ++ again)).wire [resumeOptions.connectPacket]) := by
  refine ⟨⟨tokioReady .atMostOnce ++ [.drop .outgoing (.writing 7) 0 (at' 2)] ++ tokioBye, ?_, rfl⟩,
    ⟨tokioReady .atLeastOnce ++ [.drop .outgoing (.writing 0) 0 (at' 2)] ++ tokioBye,
      [.op (.connect ⟨true, resumedConnAck, false, fun _ => true, true, at' 4⟩)], ?_, rfl, ⟨_, _, rfl, rfl⟩, ?_⟩⟩
  · have e : (tokioWire resumeOptions 0 (tokioReady .atMostOnce ++ [.drop .outgoing (.writing 7) 0 (at' 2)] ++ tokioBye)).wire =
        connectBytes ++ ([48, 7, 0, 1, 116, 0, 1, 224, 0] ++ []) := rfl
    rw [e]
    exact wireIs_cons connect_says (wireIs_cons (qos0_says 1 224 0 (n := 9) rfl) (.nil _))
  · have e : (tokioWire resumeOptions 0 (tokioReady .atLeastOnce ++ [.drop .outgoing (.writing 0) 0 (at' 2)] ++ tokioBye)).wire =
        connectBytes ++ ([224, 0] ++ []) := rfl
    rw [e]
    exact wireIs_cons connect_says (wireIs_cons bye_says (.nil _))
  · have e : (tokioWire resumeOptions 0 (tokioReady .atLeastOnce ++ [.drop .outgoing (.writing 0) 0 (at' 2)] ++ tokioBye ++
        [.op (.connect ⟨true, resumedConnAck, false, fun _ => true, true, at' 4⟩)])).wire = connectBytes ++ [] := rfl
    rw [e]
    exact wireIs_cons connect_says (.nil _)

/-- **C79, violated: smol.** (1) All bytes of a message of QoS 0 have been written when the future of `run` is dropped, before
the flush is over. The next packet brings the message once more. (2) One byte is missing: the server reads a message with the
payload 1 2 48, which nobody has sent, and then something that is no packet. -/
theorem C79_smol_violated :
    (∃ ops : List SmolWireOp,
      WireIs (smolWire true resumeOptions 0 ops).wire [resumeOptions.connectPacket, demoMessage .atMostOnce none [1, 2, 3],
        demoMessage .atMostOnce none [1, 2, 3], bye] ∧
      submittedIn (smolWireTrace true resumeOptions 0 ops) = [demoMessage .atMostOnce none [1, 2, 3], bye]) ∧
    (∃ ops : List SmolWireOp, ∃ rest,
      Stream OnWire (smolWire true resumeOptions 0 ops).wire
        [resumeOptions.connectPacket, demoMessage .atMostOnce none [1, 2, 48]] rest ∧ (∀ p rest', ¬ OnWire rest p rest') ∧
      submittedIn (smolWireTrace true resumeOptions 0 ops) = [demoMessage .atMostOnce none [1, 2, 3], bye]) := by
  refine ⟨⟨smolReady .atMostOnce ++ [.drop .outgoing (.writing 9) (at' 2)] ++ smolBye, ?_, rfl⟩,
    ⟨smolReady .atMostOnce ++ [.drop .outgoing (.writing 8) (at' 2)] ++ smolBye, [7, 0, 1, 116, 0, 1, 2, 3, 224, 0], ?_, ?_, rfl⟩⟩
  · have e : (smolWire true resumeOptions 0 (smolReady .atMostOnce ++ [.drop .outgoing (.writing 9) (at' 2)] ++ smolBye)).wire =
        connectBytes ++ ([48, 7, 0, 1, 116, 0, 1, 2, 3] ++ ([48, 7, 0, 1, 116, 0, 1, 2, 3] ++ ([224, 0] ++ []))) := rfl
    rw [e]
    exact wireIs_cons connect_says (wireIs_cons (qos0_says 1 2 3 (n := 9) rfl) (wireIs_cons (qos0_says 1 2 3 (n := 9) rfl) (wireIs_cons bye_says (.nil _))))
  · have e : (smolWire true resumeOptions 0 (smolReady .atMostOnce ++ [.drop .outgoing (.writing 8) (at' 2)] ++ smolBye)).wire =
        connectBytes ++ ([48, 7, 0, 1, 116, 0, 1, 2, 48] ++ [7, 0, 1, 116, 0, 1, 2, 3, 224, 0]) := rfl
    rw [e]
    exact .cons ⟨_, rfl, connect_says⟩ (.cons ⟨_, rfl, qos0_says 1 2 48 (n := 9) rfl⟩ (.nil _))
  · rintro p r ⟨f, e, x, l, b, rfl, hx, -⟩
    simp only [List.cons_append, List.cons.injEq] at e
    rw [← e.1] at hx
    have : 1 ≤ typeNumber p.type := by cases p.type <;> decide
    simp at hx
    omega

/-- a message of QoS 1 from the server -/
def fromServer : Bytes := [50, 7, 0, 1, 116, 0, 7, 0, 1]

/-- **C79, violated: the handler.** The future of `run` is dropped while the user's handler is at work on a message of QoS 1.
The connection goes on, but the message is never answered. -/
theorem C79_handler_violated :
    (∃ ops m, m ∈ readIn (tokioWireTrace resumeOptions 0 ops) ∧ (∃ p, m = .publish p ∧ p.qos = .atLeastOnce) ∧
      WireIs (tokioWire resumeOptions 0 ops).wire [resumeOptions.connectPacket, bye]) ∧
    (∃ ops m, m ∈ readIn (smolWireTrace true resumeOptions 0 ops) ∧ (∃ p, m = .publish p ∧ p.qos = .atLeastOnce) ∧
      WireIs (smolWire true resumeOptions 0 ops).wire [resumeOptions.connectPacket, bye]) := by
  refine ⟨⟨(tokioUp ++ [.arrive fromServer] : List TokioOp).map .op ++ [.drop .read .handling 0 (at' 2)] ++ tokioBye, _,
    .tail _ (.head _), ⟨_, rfl, rfl⟩, ?_⟩,
    ⟨smolUp.map .op ++ [.drop (.read fromServer) .handling (at' 2)] ++ smolBye, _, .tail _ (.head _), ⟨_, rfl, rfl⟩, ?_⟩⟩
  · have e : (tokioWire resumeOptions 0 ((tokioUp ++ [.arrive fromServer] : List TokioOp).map .op ++
        [.drop .read .handling 0 (at' 2)] ++ tokioBye)).wire = connectBytes ++ ([224, 0] ++ []) := rfl
    rw [e]
    exact wireIs_cons connect_says (wireIs_cons bye_says (.nil _))
  · have e : (smolWire true resumeOptions 0 (smolUp.map .op ++ [.drop (.read fromServer) .handling (at' 2)] ++ smolBye)).wire =
        connectBytes ++ ([224, 0] ++ []) := rfl
    rw [e]
    exact wireIs_cons connect_says (wireIs_cons bye_says (.nil _))

/-- **C79, how far the damage goes.** Wherever `run` is dropped, and however often: the bytes on the newest connection are legal
packets one after the other, and at most as many of them are cut off as writes were dropped. -/
theorem C79_damage (clientId : Str) (calls : List Setter) (t : Nat) :
    (∀ ops : List TokioWireOp, LegalUse clientId calls (tokioWireTrace (Options.build clientId calls) t ops) →
      (∀ i, .op (.connect i) ∈ ops → ∀ n, i.resendOk n = true) →
      Cuts (ops.countP tokioCutsWrite) (tokioWire (Options.build clientId calls) t ops).wire) ∧
    (∀ checks, ∀ ops : List SmolWireOp, LegalUse clientId calls (smolWireTrace checks (Options.build clientId calls) t ops) →
      Cuts (ops.countP smolCutsWrite) (smolWire checks (Options.build clientId calls) t ops).wire) := by
  constructor
  · intro ops hl _
    obtain ⟨-, -, h⟩ := tokio_wire_history hl.options ops (.new (Options.build clientId calls) t) [] (.init _) (.refl _) (by simp)
      hl.requests
    simpa [tokioWire] using h 0 .nil
  · intro checks ops hl
    obtain ⟨-, -, h⟩ := smol_wire_history hl.options ops (.new checks (Options.build clientId calls) t) [] [] (.init _)
      ⟨rfl, by simp [SmolWire.new, Smol.new]⟩ (.refl _) (by simp) (by simp) rfl hl.requests
    simpa [smolWire] using h 0 .nil

/-- a cut write and a dropped handler: the message of `C79_tokio_violated` loses two bytes, then `run` is called again, is
dropped while the handler looks at a message of QoS 1, and is called again to disconnect -/
def damageOps : List TokioWireOp :=
  tokioReady .atMostOnce ++ [.drop .outgoing (.writing 7) 0 (at' 2), .op .start, .op (.arrive fromServer),
    .drop .read .handling 0 (at' 2)] ++ tokioBye

theorem damageOps_legal : LegalUse ⟨[97], by decide⟩ [.keepAlive (fromSecs 10), .cleanStart false, .receiveMax 4, .sendMax 4]
    (tokioWireTrace resumeOptions 0 damageOps) := by
  have e : ∃ c a b x y z id m n, id ≠ some 0 ∧ tokioWireTrace resumeOptions 0 damageOps = [.wrote c a b, .read (.connAck x),
      .delivered (.connAck x), .connected x 1, .started, .user (.called (demoPublish .atMostOnce) none y), .user (.submitted y),
      .cancelled, .started, .read (.publish ⟨false, .atLeastOnce, false, z, id, m, n⟩), .cancelled, .started,
      .user (.called (.disconnect .normalDisconnection .empty) none bye), .user (.submitted bye), .wrote bye 3 3,
      .ended (.status .outgoingDisconnect)] := ⟨_, _, _, _, _, _, some 7, _, _, by decide, rfl⟩
  obtain ⟨c, a, b, x, y, z, id, m, n, hid, e⟩ := e
  refine ⟨onceTrace_legal.2.1, ?_, ?_⟩
  · intro q i p hm
    rw [e] at hm
    simp only [List.mem_cons, Obs.user.injEq, reduceCtorEq, false_or, Event.called.injEq, or_false, List.not_mem_nil] at hm
    rcases hm with ⟨rfl, -, -⟩ | ⟨rfl, -, -⟩
    · exact ⟨⟨⟨by unfold NoNull; decide, by decide, by decide⟩, by decide, by decide, rfl, empty_legal _⟩, by intro r P h; cases h⟩
    · exact ⟨⟨by decide, empty_legal _⟩, by intro r P h; cases h; decide⟩
  · intro p hm
    rw [e] at hm
    simp only [List.mem_cons, Obs.read.injEq, reduceCtorEq, false_or, or_false, List.not_mem_nil] at hm
    rcases hm with rfl | rfl
    · trivial
    · exact hid

/-- one write was cut -/
example : LegalUse ⟨[97], by decide⟩ [.keepAlive (fromSecs 10), .cleanStart false, .receiveMax 4, .sendMax 4]
      (tokioWireTrace resumeOptions 0 damageOps) ∧ damageOps.countP tokioCutsWrite = 1 ∧
    (tokioWire resumeOptions 0 damageOps).wire = connectBytes ++ ([48, 7, 0, 1, 116, 0, 1] ++ [224, 0]) :=
  ⟨damageOps_legal, rfl, rfl⟩

/-- a dropped handler alone cuts nothing: the first history of `C79_handler_violated` is one of `C79_whole_packets_partial` -/
example : ∀ op ∈ (tokioUp ++ [.arrive fromServer] : List TokioOp).map .op ++ [.drop .read .handling 0 (at' 2)] ++ tokioBye,
    tokioCutsWrite op = false := by decide

/-- **C79, a new connection is clean.** Whatever was dropped before: when `connect` succeeds, the bytes on the new connection
are the packets written by `connect`, whole, and the first of them is CONNECT. -/
theorem C79_new_connection (clientId : Str) (calls : List Setter) (t : Nat) :
    (∀ (ops : List TokioWireOp) (i : TokioConnect) (s' : TokioWire) (obs : List Obs),
      LegalUse clientId calls (tokioWireTrace (Options.build clientId calls) t ops) → (∀ n, i.resendOk n = true) →
      (tokioWire (Options.build clientId calls) t ops).step (.op (.connect i)) = some (s', obs) → hasConnected obs = true →
      WireIs s'.wire (writtenIn obs) ∧ ∃ c, (writtenIn obs).head? = some (.connect c)) ∧
    (∀ (checks : Bool) (ops : List SmolWireOp) (i : SmolConnect) (s' : SmolWire) (obs : List Obs),
      LegalUse clientId calls (smolWireTrace checks (Options.build clientId calls) t ops) →
      (smolWire checks (Options.build clientId calls) t ops).step (.op (.connect i)) = some (s', obs) → hasConnected obs = true →
      WireIs s'.wire (writtenIn obs) ∧ (∃ c, (writtenIn obs).head? = some (.connect c)) ∧ s'.buffer = []) := by
  constructor
  · intro ops i s' obs hl _ hs hc
    obtain ⟨h1, h2⟩ := tokio_wire_legalSys t ops hl.requests
    simp only [TokioWire.step] at hs
    split at hs
    · rename_i hn
      cases hs
      have hsay := tokio_op_says hl.options h1 h2 hn
      obtain ⟨c, a, b, rest, e⟩ := (Tokio.step_vstep hn).connected_head hc
      refine ⟨?_, c, by rw [e]; rfl⟩
      have : TokioWire.advance (tokioWire (Options.build clientId calls) t ops).wire (.connect i) obs =
          (writtenIn obs).flatMap tokioBytes := by
        simp [TokioWire.advance, connectedIn_eq, hc, sent_eq]
      rw [this]
      exact wireIs_of fun p hp => (hsay p hp).1
    · cases hs
  · intro checks ops i s' obs hl hs hc
    obtain ⟨h1, hg, h2⟩ := smol_wire_legalSys checks t ops hl.requests
    simp only [SmolWire.step] at hs
    split at hs
    · rename_i hn
      cases hs
      have hsay := smol_op_says hl.options hg h1 ⟨_, h2⟩ hn
      obtain ⟨c, a, b, rest, e⟩ := (Smol.step_vstep hg hn).1.connected_head hc
      have : SmolWire.advance (smolWire checks (Options.build clientId calls) t ops).wire
          (smolWire checks (Options.build clientId calls) t ops).buffer (.connect i) obs = ((writtenIn obs).flatMap smolBytes, []) := by
        simp [SmolWire.advance, connectedIn_eq, hc, sent_eq]
      rw [this]
      exact ⟨wireIs_of fun p hp => (hsay p hp).2, ⟨c, by rw [e]; rfl⟩, rfl⟩
    · cases hs

/-- smol has bytes in its buffer when the connection ends, and connects again -/
example : let s := smolWire true resumeOptions 0 (smolReady .atMostOnce ++ [.drop .outgoing (.writing 8) (at' 2)])
    s.buffer.length = 9 ∧ ∃ s' obs, s.step (.op (.connect ⟨true, [resumedConnAck], true, at' 3⟩)) = some (s', obs) ∧
      hasConnected obs = true ∧ (writtenIn obs).length = 1 ∧ s'.wire = connectBytes := ⟨rfl, _, _, rfl, rfl, rfl, rfl⟩

/-- What a dropped write costs, in any state: the packet has left the queue, the session has not heard of it, and the
connection goes on. -/
theorem C79_dropped_write_is_lost (s s' : TokioWire) (k lost : Nat) (T : Times) (obs : List Obs)
    (h : s.drop .outgoing (.writing k) lost T = some (s', obs)) :
    ∃ p, s.net.sys = { s'.net.sys with queue := p :: s'.net.sys.queue } ∧ s'.net.network.isSome ∧
      s'.wire = s.wire ++ (tokioBytes p).take k ∧ obs = [.cancelled] := by
  simp only [TokioWire.drop] at h
  split at h
  · rename_i await c hr hn
    split at h
    · split at h
      · simp only [TokioWire.dropOutgoing, Sys.step] at h
        cases hq : s.net.sys.queue with
        | nil => simp [hq] at h
        | cons p q =>
          simp only [hq] at h
          split at h
          · rename_i sys _ hs
            split at hs
            · simp only [Bool.false_eq_true, if_false, Option.some.injEq, Prod.mk.injEq] at hs
              obtain ⟨rfl, -⟩ := hs
              simp only [TokioWire.cut] at h
              split at h
              · simp only [Option.some.injEq, Prod.mk.injEq] at h
                obtain ⟨rfl, rfl⟩ := h
                refine ⟨p, ?_, rfl, rfl, rfl⟩
                simp only [← hq]
              · cases h
            · cases hs
          · cases h
      · cases h
    · cases h
  · cases h

/-- the second history of `C79_tokio_violated` up to the drop -/
example : ((tokioWire resumeOptions 0 (tokioReady .atLeastOnce)).drop .outgoing (.writing 0) 0 (at' 2)).isSome = true := rfl

/-- What dropping the handler costs, in any state: the packet has been taken from the stream and the session has processed it,
as if the handler had returned; nothing is written, the connection goes on. -/
theorem C79_dropped_handler (p : Packet) (hp : p ≠ .pingResp) (hd : ∀ d, p ≠ .disconnect d) :
    (∀ (s s' : TokioWire) (lost : Nat) (T : Times), s.drop .read .handling lost T = some (s', [.read p, .cancelled]) →
      s'.wire = s.wire ∧ s'.net.network.isSome ∧ s'.net.run = none ∧
      ∃ reply, s.net.sys.step (.receive p) = some (s'.net.sys, .received p reply true)) ∧
    (∀ (s s' : SmolWire) (chunk : Bytes) (T : Times), s.drop (.read chunk) .handling T = some (s', [.read p, .cancelled]) →
      s'.wire = s.wire ∧ s'.net.network.isSome ∧ s'.net.running = false ∧
      ∃ reply, s.net.sys.step (.receive p) = some (s'.net.sys, .received p reply true)) := by
  constructor
  · intro s s' lost T h
    simp only [TokioWire.drop] at h
    split at h
    · split at h
      · simp only [TokioWire.dropRead] at h
        split at h
        · split at h
          · simp only [Option.some.injEq, Prod.mk.injEq, List.cons.injEq, Obs.read.injEq] at h
            exact absurd h.2.1.symm hp
          · simp only [Option.some.injEq, Prod.mk.injEq, List.cons.injEq, Obs.read.injEq] at h
            exact absurd h.2.1.symm (hd _)
          · split at h
            · rename_i hs
              split at h
              · rename_i hsh
                simp only [Option.some.injEq, Prod.mk.injEq, List.cons.injEq, Obs.read.injEq] at h
                obtain ⟨rfl, rfl, -⟩ := h
                subst hsh
                exact ⟨rfl, rfl, rfl, _, received_self hs⟩
              · cases h
            · cases h
        · cases h
      · cases h
    · cases h
  · intro s s' chunk T h
    simp only [SmolWire.drop] at h
    split at h
    · split at h
      · simp only [SmolWire.dropRead] at h
        split at h
        · cases h
        · split at h
          · split at h
            · simp only [Option.some.injEq, Prod.mk.injEq, List.cons.injEq, Obs.read.injEq] at h
              exact absurd h.2.1.symm hp
            · simp only [Option.some.injEq, Prod.mk.injEq, List.cons.injEq, Obs.read.injEq] at h
              exact absurd h.2.1.symm (hd _)
            · split at h
              · rename_i hs
                split at h
                · rename_i hsh
                  simp only [Option.some.injEq, Prod.mk.injEq, List.cons.injEq, Obs.read.injEq] at h
                  obtain ⟨rfl, rfl, -⟩ := h
                  subst hsh
                  exact ⟨rfl, rfl, rfl, _, received_self hs⟩
                · cases h
              · cases h
          · cases h
      · cases h
    · cases h

/-- a message of QoS 2 from the server, and the same sent again -/
def fromServer2 : Bytes := [52, 7, 0, 1, 116, 0, 7, 0, 1]
def fromServer2Again : Bytes := [60, 7, 0, 1, 116, 0, 7, 0, 1]

/-- so a message of QoS 2 is not shown again: its handler is dropped, the session is resumed on a new connection, the server
sends the message again, and the client acknowledges it without calling the handler -/
example : ∃ m n, (∃ p, m = .publish p ∧ p.qos = .exactlyOnce) ∧
    let tr := tokioWireTrace resumeOptions 0 ((tokioUp ++ [.arrive fromServer2] : List TokioOp).map .op ++
      [.drop .read .handling 0 (at' 2)] ++ ([.connect ⟨true, resumedConnAck, false, fun _ => true, true, at' 3⟩, .start,
        .arrive fromServer2Again, .turn .read 0 true (at' 4)] : List TokioOp).map .op)
    readIn tr = [.connAck n, m, .connAck { n with sessionPresent := true },
        match m with | .publish p => .publish { p with dup := true } | q => q] ∧
      deliveredIn tr = [.connAck n, .connAck { n with sessionPresent := true }] ∧
      (writtenIn tr).map (·.type) = [.connect, .connect, .pubRec] :=
  ⟨_, _, ⟨_, rfl, rfl⟩, rfl, rfl, rfl⟩

end Mqrstt.Props
