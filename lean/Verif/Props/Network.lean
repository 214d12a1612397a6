import Verif.Proof.NetHelp
/-!
# The networks: connect and run (C36-C39)

A history is any list of steps of the clients, of the user (`connect`, `run`, dropping the future of `run`, dropping
the network), of the server (bytes, end of the stream) and of the loop (which branch of `select!` completes, whether
writes succeed, what the clock says). `IsTrace` are the observations of all histories of both networks, newly
created with any options.
-/

namespace Mqrstt.Props
open Mqrstt Mqrstt.Spec _root_.Spec

/-! ## concrete histories for the examples -/

/-- options with a short keep-alive (10 s) -/
def netOptions : Options := Options.build ⟨[97], by decide⟩ [.keepAlive (fromSecs 10)]

/-- the times of a step in which nothing takes any time -/
def at' (t : Nat) : Times := ⟨t, t, t, t⟩

/-- a CONNACK without anything special -/
def plainConnAck : Bytes := [0x20, 0x03, 0x00, 0x00, 0x00]

def tokioUp : List TokioOp := [.connect ⟨true, plainConnAck, false, fun _ => true, true, at' 1⟩, .start]
def smolUp : List SmolOp := [.connect ⟨true, [plainConnAck], true, at' 1⟩, .start]

/-! ## C36 -/

/-- **C36.** `run` starts only on a connection made by a successful `connect` and not ended since, and reports "no
network" only without one. -/
theorem C36_run_needs_connect (tr pre post : List Obs) (h : IsTrace tr) :
    (tr = pre ++ .started :: post → isUp pre = true) ∧
    (tr = pre ++ .ended (.error .noNetwork) :: post → isUp pre = false) := by
  obtain ⟨fl, o, t, v, h⟩ := h.vrun
  constructor
  · intro e
    obtain ⟨v1, v2, tr1, o1, o2, tr2, h1, h2, -, rfl, -⟩ := h.split e
    have : AllPos (fun o1 x _ => x = .started → o1 = [] ∧ v1.live = true) (o1 ++ .started :: o2) := by
      generalize o1 ++ Obs.started :: o2 = ob at h2
      cases h2
      case start => simpa
      case accepted => rename_i reply shown _ _ _; cases shown <;> cases reply <;> simp [shownObs, wrotes]
      case acceptedFail => rename_i shown _ _ _ _ _; cases shown <;> simp [shownObs]
      case connectFailed ho => rcases ho with rfl | ⟨_, _, _, rfl⟩ <;> simp
      case established => simp; exact allPos_wrotes (by simp) (by simp)
      case establishFail => simp; exact allPos_wrotes (by simp) (by simp)
      all_goals simp
    obtain ⟨rfl, hl⟩ := this _ _ _ rfl rfl
    rw [List.append_nil, ← h1.up.1]
    exact hl
  · intro e
    obtain ⟨v1, v2, tr1, o1, o2, tr2, h1, h2, -, rfl, -⟩ := h.split e
    have : AllPos (fun o1 x _ => x = .ended (.error .noNetwork) → o1 = [] ∧ v1.live = false)
        (o1 ++ .ended (.error .noNetwork) :: o2) := by
      generalize o1 ++ Obs.ended (.error .noNetwork) :: o2 = ob at h2
      cases h2
      case noNetwork => simpa
      case accepted => rename_i reply shown _ _ _; cases shown <;> cases reply <;> simp [shownObs, wrotes]
      case acceptedFail he _ => rename_i shown _ _ _ _; cases shown <;> simp [shownObs, he.1]
      case readPingFail he => simp [he.1]
      case outFail he _ => simp [he.1]
      case connectFailed ho => rcases ho with rfl | ⟨_, _, _, rfl⟩ <;> simp
      case established => simp; exact allPos_wrotes (by simp) (by simp)
      case establishFail => simp; exact allPos_wrotes (by simp) (by simp)
      all_goals simp [*]
    obtain ⟨rfl, hl⟩ := this _ _ _ rfl rfl
    rw [List.append_nil, ← h1.up.1]
    exact hl

/-- **C36.** With a connection `run` starts; without one it reports that at once. Neither changes the session. (tokio) -/
theorem C36_start_tokio (o : Options) (t : Nat) (ops : List TokioOp) (hnet : (tokio o t ops).sys.alive = true)
    (hidle : isRunning (tokioTrace o t ops) = false) :
    (isUp (tokioTrace o t ops) = true →
      ∃ s', (tokio o t ops).step .start = some (s', [.started]) ∧ s'.sys = (tokio o t ops).sys) ∧
    (isUp (tokioTrace o t ops) = false →
      (tokio o t ops).step .start = some (tokio o t ops, [.ended (.error .noNetwork)])) := by
  have hv := (Tokio.vrun o t ops).up
  have hrun : (tokio o t ops).run = none := by
    have := hv.2.trans hidle
    simpa [Tokio.view, tokio] using this
  constructor
  · intro hu
    have := hv.1.trans hu
    obtain ⟨c, hc⟩ := Option.isSome_iff_exists.1 this
    have hc : (tokio o t ops).network = some c := hc
    exact ⟨{ tokio o t ops with run := some none }, by simp [Tokio.step, hrun, hnet, hc], rfl⟩
  · intro hu
    have := hv.1.trans hu
    have hc : (tokio o t ops).network = none := by simpa [Tokio.view, tokio] using this
    simp [Tokio.step, hrun, hnet, hc]

/-- **C36.** The same for smol. -/
theorem C36_start_smol (checks : Bool) (o : Options) (t : Nat) (ops : List SmolOp)
    (hnet : (smol checks o t ops).sys.alive = true) (hidle : isRunning (smolTrace checks o t ops) = false) :
    (isUp (smolTrace checks o t ops) = true →
      ∃ s', (smol checks o t ops).step .start = some (s', [.started]) ∧ s'.sys = (smol checks o t ops).sys) ∧
    (isUp (smolTrace checks o t ops) = false →
      (smol checks o t ops).step .start = some (smol checks o t ops, [.ended (.error .noNetwork)])) := by
  have hv := (Smol.vrun checks o t ops).up
  have hrun : (smol checks o t ops).running = false := hv.2.trans hidle
  constructor
  · intro hu
    have := hv.1.trans hu
    obtain ⟨c, hc⟩ := Option.isSome_iff_exists.1 this
    have hc : (smol checks o t ops).network = some c := hc
    exact ⟨{ smol checks o t ops with running := true }, by simp [Smol.step, hrun, hnet, hc], rfl⟩
  · intro hu
    have := hv.1.trans hu
    have hc : (smol checks o t ops).network = none := by simpa [Smol.view, smol] using this
    simp [Smol.step, hrun, hnet, hc]

/-- **C36.** Whenever `run` ends the connection is gone; the session keeps everything but what the packet that was being
processed changes, and the network remains usable unless it panicked. (tokio) -/
theorem C36_session_survives_tokio (o : Options) (t : Nat) (ops : List TokioOp) (op : TokioOp) (s' : Tokio)
    (obs : List Obs) (e : End) (h : (tokio o t ops).step op = some (s', obs)) (he : .ended e ∈ obs) :
    s'.network = none ∧ s'.run = none ∧ OnlyLastPacket (tokio o t ops).sys s'.sys obs e ∧
      (e ≠ .panicked → s'.sys.alive = true) := by
  have := onlyLastPacket (Tokio.step_vstep h) he
  exact ⟨by simpa [Tokio.view] using this.2.1, by simpa [Tokio.view] using this.2.2.1, this.1, this.2.2.2⟩

/-- **C36.** The same for smol. -/
theorem C36_session_survives_smol (checks : Bool) (o : Options) (t : Nat) (ops : List SmolOp) (op : SmolOp) (s' : Smol)
    (obs : List Obs) (e : End) (h : (smol checks o t ops).step op = some (s', obs)) (he : .ended e ∈ obs) :
    s'.network = none ∧ s'.running = false ∧ OnlyLastPacket (smol checks o t ops).sys s'.sys obs e ∧
      (e ≠ .panicked → s'.sys.alive = true) := by
  have := onlyLastPacket (Smol.step_vstep (Smol.vrun_good checks o t ops).2 h).1 he
  exact ⟨by simpa [Smol.view] using this.2.1, this.2.2.1, this.1, this.2.2.2⟩

/-- run without connect; connect, run, DISCONNECT from the server, run again -/
example : tokioTrace netOptions 0 ([.start] ++ tokioUp ++ [.arrive [0xE0, 0x00], .turn .read 0 true (at' 2), .start]) =
    [.ended (.error .noNetwork), .wrote netOptions.connectPacket 1 1, .read (.connAck ⟨false, .success, .empty⟩),
      .delivered (.connAck ⟨false, .success, .empty⟩), .connected ⟨false, .success, .empty⟩ 1, .started,
      .read (.disconnect ⟨.normalDisconnection, .empty⟩), .delivered (.disconnect ⟨.normalDisconnection, .empty⟩),
      .ended (.status .incomingDisconnect), .ended (.error .noNetwork)] := rfl

example : smolTrace true netOptions 0 ([.start] ++ smolUp ++ [.turn (.read [0xE0, 0x00]) true (at' 2), .start]) =
    [.ended (.error .noNetwork), .wrote netOptions.connectPacket 1 1, .read (.connAck ⟨false, .success, .empty⟩),
      .delivered (.connAck ⟨false, .success, .empty⟩), .connected ⟨false, .success, .empty⟩ 1, .started,
      .read (.disconnect ⟨.normalDisconnection, .empty⟩), .delivered (.disconnect ⟨.normalDisconnection, .empty⟩),
      .ended (.status .incomingDisconnect), .ended (.error .noNetwork)] := rfl

/-- both before and after a connection, `run` does nothing -/
example : (tokio netOptions 0 []).sys.alive = true ∧ isRunning (tokioTrace netOptions 0 []) = false ∧
    isUp (tokioTrace netOptions 0 []) = false ∧ isUp (tokioTrace netOptions 0 tokioUp) = true := by decide +kernel

/-! ## C37 -/

/-- **C37.** The status with which `run` returns is true. -/
theorem C37_status_truthful (tr pre post : List Obs) (st : Status) (h : IsTrace tr)
    (e : tr = pre ++ .ended (.status st) :: post) : StatusReason pre st := by
  obtain ⟨fl, o, t, v, h⟩ := h.vrun
  obtain ⟨v1, v2, tr1, o1, o2, tr2, h1, h2, -, rfl, -⟩ := h.split e
  have hb := h2.status _ _ _ rfl _ rfl
  cases st with
  | incomingDisconnect => obtain ⟨d, hd⟩ := hb; exact ⟨d, suffix_left _ hd⟩
  | keepAliveTimeout => obtain ⟨a, b, hd⟩ := hb; exact ⟨a, b, suffix_left _ hd⟩
  | shutdownSignal => exact hb
  | outgoingDisconnect =>
    obtain ⟨d, a, b, hd⟩ := hb
    refine ⟨d, a, b, suffix_left _ hd, ?_⟩
    have hq := outgoingDisconnect h2 hd
    rw [submittedIn_append]
    exact List.mem_append_left _ (queue_submitted h1 hq.1 _ hq.2)

/-- **C37.** Conversely: a DISCONNECT that is read goes to the handler and ends `run` with "incoming disconnect" (or, as
the answer to CONNECT, makes `connect` fail); a DISCONNECT that is written ends `run` with "outgoing disconnect", or with
"keep-alive timeout" if it is the timer's. -/
theorem C37_status_complete (tr pre post : List Obs) (d : ReasonProps) (h : IsTrace tr) :
    (tr = pre ++ .read (.disconnect d) :: post →
      [.delivered (.disconnect d), .ended (.status .incomingDisconnect)] <+: post ∨
        [.connectFailed (.notConnAck (.disconnect d))] <+: post) ∧
    (∀ a b, tr = pre ++ .wrote (.disconnect d) a b :: post →
      [.ended (.status .outgoingDisconnect)] <+: post ∨
        (d = ⟨.keepAliveTimeout, .empty⟩ ∧ [.ended (.status .keepAliveTimeout)] <+: post)) := by
  constructor
  · intro e
    obtain ⟨tr1, o1, o2, tr2, h1, -, rfl⟩ := h.pos (fun fl v o w _ hs => hs.readDisconnect) e
    exact (h1 d rfl).imp (prefix_right _) (prefix_right _)
  · intro a b e
    obtain ⟨tr1, o1, o2, tr2, h1, -, rfl⟩ := h.pos (fun fl v o w _ hs => hs.wroteDisconnect) e
    refine (h1 d a b rfl).imp (prefix_right _) fun ⟨h1, h2⟩ => ⟨?_, prefix_right _ h2⟩
    simpa [keepAliveDisconnect] using h1

/-- the user's DISCONNECT -/
def userDisconnect : Request := .disconnect .normalDisconnection .empty
def userDisconnectPacket : Packet := .disconnect ⟨.normalDisconnection, .empty⟩

example : tokioTrace netOptions 0 (tokioUp ++ [.client (.call userDisconnect), .client (.submit 0),
      .turn .outgoing 0 true (at' 2)]) =
    tokioTrace netOptions 0 tokioUp ++ [.user (.called userDisconnect none userDisconnectPacket), .user (.submitted userDisconnectPacket),
      .wrote userDisconnectPacket 2 2, .ended (.status .outgoingDisconnect)] := rfl

/-! ## C38 -/

/-- **C38.** The handler sees a packet right after it was read, so in the order of arrival and each at most once. -/
theorem C38_in_order (tr : List Obs) (h : IsTrace tr) :
    (deliveredIn tr).Sublist (readIn tr) ∧
    ∀ pre post p, tr = pre ++ .delivered p :: post → [.read p] <:+ pre := by
  refine ⟨?_, ?_⟩
  · obtain ⟨fl, o, t, v, h⟩ := h.vrun
    refine h.induct (fun tr _ => (deliveredIn tr).Sublist (readIn tr)) (List.Sublist.refl _) ?_
    intro tr w o w' _ ih hs
    rw [deliveredIn_append, readIn_append]
    exact ih.append hs.deliveredRead
  · intro pre post p e
    obtain ⟨tr1, o1, o2, tr2, h1, rfl, -⟩ := h.pos (fun fl v o w _ hs => hs.delivered) e
    exact suffix_left _ (h1 p rfl)

/-- **C38.** Every packet read is passed to the handler at once, with these exceptions: a QoS 2 message that is a copy
(it is acknowledged again), a packet that is an error (it ends `run`), and the answer to CONNECT if `connect` fails. -/
theorem C38_every_packet (tr pre post : List Obs) (p : Packet) (h : IsTrace tr) (e : tr = pre ++ .read p :: post) :
    [.delivered p] <+: post ∨
    (∃ q id, p = .publish q ∧ q.qos = .exactlyOnce ∧ q.pkid = some id ∧
      ((∃ a b, [.wrote (.pubRec ⟨id, .success, .empty⟩) a b] <+: post) ∨ ∃ x, [.ended (.error x)] <+: post)) ∨
    (∃ x, [.ended (.error (.handler x))] <+: post) ∨ [.ended .panicked] <+: post ∨
    [.connectPanicked] <+: post ∨ (∃ x, [.connectFailed x] <+: post) := by
  obtain ⟨tr1, o1, o2, tr2, h1, -, rfl⟩ := h.pos (fun fl v o w _ hs => hs.readStep) e
  cases h1 p rfl with
  | delivered h => exact .inl (prefix_right _ h)
  | copy hp hq hid h =>
    refine .inr (.inl ⟨_, _, hp, hq, hid, ?_⟩)
    rcases h with ⟨a, b, h⟩ | ⟨x, h⟩
    · exact .inl ⟨a, b, prefix_right _ h⟩
    · exact .inr ⟨x, prefix_right _ h⟩
  | rejected h => exact .inr (.inr (.inl ⟨_, prefix_right _ h⟩))
  | panicked h =>
    rcases h with h | h
    · exact .inr (.inr (.inr (.inl (prefix_right _ h))))
    · exact .inr (.inr (.inr (.inr (.inl (prefix_right _ h)))))
  | connectFailed h => exact .inr (.inr (.inr (.inr (.inr ⟨_, prefix_right _ h⟩))))

/-- **C38.** An acknowledgement is written only right after the handler has seen what it acknowledges (a PUBREC
possibly for a copy of it, which the handler is not called for). -/
theorem C38_handler_before_ack (tr pre post : List Obs) (a b : Nat) (h : IsTrace tr) :
    (∀ r, tr = pre ++ .wrote (.pubAck r) a b :: post →
      ∃ q : Publish, q.qos = .atLeastOnce ∧ q.pkid = some r.id ∧ [.read (.publish q), .delivered (.publish q)] <:+ pre) ∧
    (∀ r, tr = pre ++ .wrote (.pubRec r) a b :: post →
      ∃ q : Publish, q.qos = .exactlyOnce ∧ q.pkid = some r.id ∧
        ([.read (.publish q), .delivered (.publish q)] <:+ pre ∨ [.read (.publish q)] <:+ pre)) ∧
    (∀ r, tr = pre ++ .wrote (.pubComp r) a b :: post →
      ∃ q : Ack, q.id = r.id ∧ [.read (.pubRel q), .delivered (.pubRel q)] <:+ pre) := by
  refine ⟨?_, ?_, ?_⟩ <;> intro r e <;>
    obtain ⟨tr1, o1, o2, tr2, h1, rfl, -⟩ := h.pos (fun fl v o w hu hs => hs.acks hu) e <;>
    have h1 := h1 _ _ _ rfl
  · obtain ⟨q, h2, h3, h4⟩ := h1
    exact ⟨q, h2, h3, suffix_left _ h4⟩
  · obtain ⟨q, h2, h3, h4⟩ := h1
    exact ⟨q, h2, h3, h4.imp (suffix_left _) (suffix_left _)⟩
  · obtain ⟨q, h2, h4⟩ := h1
    exact ⟨q, h2, suffix_left _ h4⟩

/-- a QoS 1 message: topic "a", identifier 1 -/
def netMessage : Publish := ⟨false, .atLeastOnce, false, ⟨[97], by decide⟩, some 1, .empty, []⟩

example : tokioTrace netOptions 0 (tokioUp ++ [.arrive [0x32, 0x06, 0, 1, 97, 0, 1, 0], .turn .read 0 true (at' 2)]) =
    tokioTrace netOptions 0 tokioUp ++ [.read (.publish netMessage), .delivered (.publish netMessage),
      .wrote (.pubAck ⟨1, .success, .empty⟩) 2 2] := rfl

/-- writing the acknowledgement fails: the handler has been called -/
example : smolTrace true netOptions 0 (smolUp ++ [.turn (.read [0x32, 0x06, 0, 1, 97, 0, 1, 0]) false (at' 2)]) =
    smolTrace true netOptions 0 smolUp ++ [.read (.publish netMessage), .delivered (.publish netMessage),
      .ended (.error .io)] := rfl

/-! ## C39 -/

/-- **C39.** What the networks write of the clients' packets is what was submitted, in the same order and each at most once. -/
theorem C39_network_fifo (tr : List Obs) (h : IsTrace tr) : (freshIn tr).Sublist (submittedIn tr) := by
  obtain ⟨fl, o, t, v, h⟩ := h.vrun
  obtain ⟨ops, hc⟩ := h.contains
  rw [hc.submitted]
  exact hc.fresh

/-- a QoS 0 publish -/
def netPublish (payload : Bytes) : Request := .publish ⟨[97], by decide⟩ .atMostOnce false payload .empty
def netPublished (payload : Bytes) : Packet := .publish ⟨false, .atMostOnce, false, ⟨[97], by decide⟩, none, .empty, payload⟩

/-- two clients; the one called last is first in the queue -/
example :
    let tr := tokioTrace netOptions 0 (tokioUp ++ [.client (.call (netPublish [1])), .client (.call (netPublish [2])),
      .client (.submit 1), .client (.submit 0), .turn .outgoing 0 true (at' 2), .turn .outgoing 0 true (at' 3)])
    freshIn tr = [netPublished [2], netPublished [1]] ∧ submittedIn tr = [netPublished [2], netPublished [1]] :=
  ⟨rfl, rfl⟩

/-- **The session properties hold in the networks.** The session in a tokio network is at any time the session after a
history of the clients, the server and write results, with the same packets submitted and the same packets passed to the
handler; what the properties C20-C35, C39, C47, C49 and C50 say about all such histories therefore holds for it. -/
theorem C39_session_in_tokio (o : Options) (t : Nat) (ops : List TokioOp) :
    ∃ sops : List Op, (tokio o t ops).sys = client o.config sops ∧
      submittedIn (tokioTrace o t ops) = submittedPackets (events o.config sops) ∧
      (deliveredIn (tokioTrace o t ops)).filter Packet.forSession = (events o.config sops).flatMap Event.shows := by
  obtain ⟨sops, hc⟩ := (Tokio.vrun o t ops).contains
  exact ⟨sops, hc.sys, hc.submitted, hc.shows⟩

/-- **The session properties hold in the networks.** (smol) -/
theorem C39_session_in_smol (checks : Bool) (o : Options) (t : Nat) (ops : List SmolOp) :
    ∃ sops : List Op, (smol checks o t ops).sys = client o.config sops ∧
      submittedIn (smolTrace checks o t ops) = submittedPackets (events o.config sops) ∧
      (deliveredIn (smolTrace checks o t ops)).filter Packet.forSession = (events o.config sops).flatMap Event.shows := by
  obtain ⟨sops, hc⟩ := (Smol.vrun checks o t ops).contains
  exact ⟨sops, hc.sys, hc.submitted, hc.shows⟩

end Mqrstt.Props
