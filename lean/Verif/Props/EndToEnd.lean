import Verif.Proof.EndToEnd
import Verif.Props.Sender
/-!
# C66, C67: messages arrive, from one end to the other

Client, network and server together: the histories of the client are those of the model, the rest of the world follows
`World.Story`. Connections may be lost at any moment, with everything under way on them.
-/

namespace Mqrstt.Props
open Mqrstt Mqrstt.Spec _root_.Spec

theorem obeys {o : Options} {tr : List Obs} (h : IsTraceWith o tr) : Obeys o.cleanStart tr :=
  fun pre p a b post e => C65_sender o tr h pre post p a b e

/-- **C66, at most once.** Whatever happens to the connections, the QoS 2 messages that the client sent are, each once: those
the server handed on, some of those not acknowledged yet, those refused, and some of those given up with the session. So
nothing is handed on twice, nothing is handed on that was not sent, and what is neither waiting nor refused nor given up
has been handed on. With a session that lasts nothing is given up. -/
theorem C66_exactly_once (o : Options) (tr : List Obs) (h : IsTraceWith o tr) (keeps : Bool) (w : World) (hw : World.Story keeps tr w) :
    (∃ u d, u.Sublist (ofQos .exactlyOnce (sender o.cleanStart tr).unacked) ∧
      d.Sublist (ofQos .exactlyOnce (sender o.cleanStart tr).discarded) ∧
      (ofQos .exactlyOnce (sentIn tr)).Perm
        (ofQos .exactlyOnce w.handed ++ u ++ ofQos .exactlyOnce (sender o.cleanStart tr).refused ++ d)) ∧
    (keeps = true → o.cleanStart = false → (sender o.cleanStart tr).discarded = []) := by
  obtain ⟨u, hu, hb⟩ := Books.u (consistent hw (obeys h))
  obtain ⟨d, hd, hp⟩ := hb.two
  refine ⟨⟨u, d, hu, hd, hp⟩, fun h1 h2 => none_discarded hw (obeys h) (by simp [h1, h2])⟩

/-- **C66, exactly once.** When the client waits for nothing and nothing was refused or given up, the QoS 2 messages handed
on are the QoS 2 messages sent. -/
theorem C66_all_arrived (o : Options) (tr : List Obs) (h : IsTraceWith o tr) (keeps : Bool) (w : World) (hw : World.Story keeps tr w)
    (h1 : (sender o.cleanStart tr).unacked = []) (h2 : (sender o.cleanStart tr).refused = [])
    (h3 : (sender o.cleanStart tr).discarded = []) :
    (ofQos .exactlyOnce w.handed).Perm (ofQos .exactlyOnce (sentIn tr)) := by
  obtain ⟨⟨u, d, hu, hd, hp⟩, -⟩ := C66_exactly_once o tr h keeps w hw
  rw [h1] at hu
  rw [h3] at hd
  rw [List.sublist_nil.mp hu, List.sublist_nil.mp hd, h2] at hp
  simpa [ofQos] using hp.symm

/-- **C67, at least once.** Every QoS 1 message sent is acknowledged, waiting, refused or given up with the session, each
once; every acknowledged one has been handed on, as often as it was acknowledged; and nothing was handed on that was not
sent. -/
theorem C67_at_least_once (o : Options) (tr : List Obs) (h : IsTraceWith o tr) (keeps : Bool) (w : World) (hw : World.Story keeps tr w) :
    (ofQos .atLeastOnce (sentIn tr)).Perm
      (ofQos .atLeastOnce (sender o.cleanStart tr).acked ++ ofQos .atLeastOnce (sender o.cleanStart tr).unacked ++
        ofQos .atLeastOnce (sender o.cleanStart tr).refused ++ ofQos .atLeastOnce (sender o.cleanStart tr).discarded) ∧
    (∃ copies, (ofQos .atLeastOnce w.handed).Perm (ofQos .atLeastOnce (sender o.cleanStart tr).acked ++ copies)) ∧
    (∀ p ∈ w.handed, p.qos = .atLeastOnce → p ∈ sentIn tr) := by
  obtain ⟨u, hu, hb⟩ := Books.u (consistent hw (obeys h))
  exact ⟨hb.one, part_of_times _ _ (fun p => times_ofQos_le (hb.acked p)), handed_sent hw (obeys h)⟩

/-! ## a story -/

/-- PUBLISH 1 of QoS 2 is sent, the connection is lost, the session is resumed, PUBLISH 1 is sent again and its handshake
finished -/
def onceOps : List TokioOp :=
  tokioUp ++ [.client (.call (demoPublish .exactlyOnce)), .client (.submit 0), .turn .outgoing 0 true (at' 2), .turn .readError 0 true (at' 3),
    .connect ⟨true, resumedConnAck, false, fun _ => true, true, at' 4⟩, .start,
    .arrive [0x50, 0x02, 0x00, 0x01], .turn .read 0 true (at' 5), .arrive [0x70, 0x02, 0x00, 0x01], .turn .read 0 true (at' 6)]

def onceTrace : List Obs := tokioTrace resumeOptions 0 onceOps

def onceMessage : Publish := ⟨false, .exactlyOnce, false, ⟨[116], by decide⟩, some 1, .empty, [1, 2, 3]⟩

theorem onceTrace_eq : ∃ e₁ e₂ r, onceTrace =
    [.wrote resumeOptions.connectPacket 1 1, .read (.connAck ⟨false, .success, .empty⟩), .delivered (.connAck ⟨false, .success, .empty⟩),
      .connected ⟨false, .success, .empty⟩ 1, .started, .user e₁, .user e₂, .wrote (.publish onceMessage) 2 2, .ended r,
      .wrote resumeOptions.connectPacket 4 4, .read (.connAck ⟨true, .success, .empty⟩), .delivered (.connAck ⟨true, .success, .empty⟩),
      .wrote (.publish { onceMessage with dup := true }) 4 4, .connected ⟨true, .success, .empty⟩ 4, .started,
      .read (.pubRec ⟨1, .success, .empty⟩), .delivered (.pubRec ⟨1, .success, .empty⟩), .wrote (.pubRel ⟨1, .success, .empty⟩) 5 5,
      .read (.pubComp ⟨1, .success, .empty⟩), .delivered (.pubComp ⟨1, .success, .empty⟩)] := ⟨_, _, _, rfl⟩

/-- the server hands the message on when it comes first; its PUBREC is lost with the connection; when the message comes
again the server only answers -/
theorem onceStory : World.Story true onceTrace ⟨[], [], [], true, [onceMessage], true⟩ := by
  obtain ⟨e₁, e₂, r, e⟩ := onceTrace_eq
  rw [e]
  obtain ⟨c, hc, hcl⟩ : ∃ c, resumeOptions.connectPacket = .connect c ∧ c.cleanStart = false := ⟨_, rfl, rfl⟩
  rw [hc]
  have h0 : World.Story true [] ⟨[], [], [], false, [], false⟩ := .start
  have h1 : World.Story true _ ⟨[.connect c], [], [], false, [], false⟩ := h0.client (.connect (c := c) (a := 1) (b := 1) 0)
  have h2 : World.Story true _ ⟨[], [.connAck ⟨false, .success, .empty⟩], [], true, [], false⟩ := h1.server (.accept rfl rfl rfl)
  have h3 : World.Story true _ ⟨[], [], [], true, [], true⟩ := h2.client (.accepted (missed := []) rfl rfl)
  have h4 : World.Story true _ ⟨[], [], [], true, [], true⟩ := h3.client (.delivered (p := .connAck ⟨false, .success, .empty⟩))
  have h5 : World.Story true _ ⟨[], [], [], true, [], true⟩ := h4.client (.connected (c := ⟨false, .success, .empty⟩) (t := 1))
  have h6 : World.Story true _ ⟨[], [], [], true, [], true⟩ := h5.client (.started rfl)
  have h7 : World.Story true _ ⟨[], [], [], true, [], true⟩ := (h6.client (.user (e := e₁))).client (.user (e := e₂))
  have h8 : World.Story true _ ⟨[.publish onceMessage], [], [], true, [], true⟩ := h7.client (.wrote (a := 2) (b := 2) rfl)
  have h9 : World.Story true _ ⟨[], [.pubRec ⟨1, .success, .empty⟩], [1], true, [onceMessage], true⟩ :=
    h8.server (.qos2 (p := onceMessage) (rest := []) (a := ⟨1, .success, .empty⟩) rfl rfl rfl List.not_mem_nil)
  have h10 : World.Story true _ ⟨[.connect c], [], [1], true, [onceMessage], false⟩ :=
    (h9.client (.ended (r := r))).client (.connect (c := c) (a := 4) (b := 4) 0)
  have h11 : World.Story true _ ⟨[], [.connAck ⟨true, .success, .empty⟩], [1], true, [onceMessage], false⟩ :=
    h10.server (.accept rfl rfl (by simp [hcl]))
  have h12 : World.Story true _ ⟨[], [], [1], true, [onceMessage], true⟩ := h11.client (.accepted (missed := []) rfl rfl)
  have h13 : World.Story true _ ⟨[], [], [1], true, [onceMessage], true⟩ := h12.client (.delivered (p := .connAck ⟨true, .success, .empty⟩))
  have h14 : World.Story true _ ⟨[.publish { onceMessage with dup := true }], [], [1], true, [onceMessage], true⟩ :=
    h13.client (.wrote (a := 4) (b := 4) rfl)
  have h15 : World.Story true _ ⟨[], [.pubRec ⟨1, .success, .empty⟩], [1], true, [onceMessage], true⟩ :=
    h14.server (.qos2again rfl rfl rfl (List.mem_cons_self ..) rfl)
  have h16 : World.Story true _ ⟨[], [.pubRec ⟨1, .success, .empty⟩], [1], true, [onceMessage], true⟩ :=
    (h15.client (.connected (c := ⟨true, .success, .empty⟩) (t := 4))).client (.started rfl)
  have h17 : World.Story true _ ⟨[], [], [1], true, [onceMessage], true⟩ :=
    (h16.client (.read (missed := []) rfl (by intro c; simp))).client (.delivered (p := .pubRec ⟨1, .success, .empty⟩))
  have h18 : World.Story true _ ⟨[.pubRel ⟨1, .success, .empty⟩], [], [1], true, [onceMessage], true⟩ :=
    h17.client (.wrote (a := 5) (b := 5) rfl)
  have h19 : World.Story true _ ⟨[], [.pubComp ⟨1, .success, .empty⟩], [], true, [onceMessage], true⟩ := h18.server (.pubRel rfl rfl)
  have h20 : World.Story true _ ⟨[], [], [], true, [onceMessage], true⟩ :=
    (h19.client (.read (missed := []) rfl (by intro c; simp))).client (.delivered (p := .pubComp ⟨1, .success, .empty⟩))
  simp only [List.nil_append, List.cons_append] at h20
  exact h20

/-- it was written twice and handed on once -/
example :
    (writtenIn onceTrace).filterMap Packet.ident = [1, 1] ∧
    (sender resumeOptions.cleanStart onceTrace).unacked = [] ∧ (sender resumeOptions.cleanStart onceTrace).refused = [] ∧
    (sender resumeOptions.cleanStart onceTrace).discarded = [] ∧ sentIn onceTrace = [onceMessage] ∧
    IsTraceWith resumeOptions onceTrace ∧ World.Story true onceTrace ⟨[], [], [], true, [onceMessage], true⟩ :=
  ⟨rfl, rfl, rfl, rfl, rfl, .tokio 0 onceOps rfl, onceStory⟩

/-! ## C68: the old connection -/

/-- **C68**, the part that holds: if there was no connection left when the client asked for a new one (because `run` had
ended, not been cancelled), then `run` starts only after some `connect` has succeeded. Missing: see below. -/
theorem C68_old_connection_partial (o : Options) (tr pre mid post : List Obs) (c : Connect) (a b : Nat) (h : IsTraceWith o tr)
    (e : tr = pre ++ .wrote (.connect c) a b :: mid ++ .started :: post) (hup : isUp pre = false) :
    ∃ k t, .connected k t ∈ mid := by
  have ht : IsTrace tr := by
    cases h with
    | tokio t ops h => exact .tokio o t ops h
    | smol checks t ops h => exact .smol checks o t ops h
  have := (C36_run_needs_connect tr (pre ++ .wrote (.connect c) a b :: mid) post ht).1 e
  have key : ∀ (l : List Obs), (∀ k t, .connected k t ∉ l) → l.foldl upStep false = false := by
    intro l
    induction l with
    | nil => simp
    | cons x l ih =>
      intro hl
      rw [List.foldl_cons]
      have hx : upStep false x = false := by
        unfold upStep
        split <;> first | rfl | exact absurd (List.mem_cons_self ..) (hl _ _)
      rw [hx]
      exact ih fun k t hm => hl k t (List.mem_cons_of_mem _ hm)
  apply Classical.byContradiction
  intro hn
  have hno : ∀ k t, Obs.connected k t ∉ (.wrote (.connect c) a b :: mid : List Obs) := by
    intro k t hm
    rcases List.mem_cons.mp hm with hm | hm
    · simp at hm
    · exact hn ⟨k, t, hm⟩
  rw [isUp, List.foldl_append] at this
  rw [show pre.foldl upStep false = false from hup] at this
  rw [key _ hno] at this
  simp at this

/-- a connection is lost, the next `connect` fails, the one after succeeds -/
def failOnce : List TokioOp :=
  tokioUp ++ [.turn .readError 0 true (at' 3), .connect ⟨true, [], true, fun _ => true, true, at' 4⟩,
    .connect ⟨true, plainConnAck, false, fun _ => true, true, at' 5⟩, .start]

example : ∃ c, netOptions.connectPacket = .connect c ∧ tokioTrace netOptions 0 failOnce =
      (tokioTrace netOptions 0 failOnce).take 6 ++ .wrote (.connect c) 4 4 ::
        [.connectFailed .io, .wrote netOptions.connectPacket 5 5, .read (.connAck ⟨false, .success, .empty⟩),
          .delivered (.connAck ⟨false, .success, .empty⟩), .connected ⟨false, .success, .empty⟩ 5] ++ .started :: [] ∧
      isUp ((tokioTrace netOptions 0 failOnce).take 6) = false :=
  ⟨_, rfl, rfl, rfl⟩

/-- options with a single identifier -/
def oneIdOptions : Options :=
  Options.build ⟨[97], by decide⟩ [.keepAlive (fromSecs 10), .cleanStart false, .receiveMax 4, .sendMax 1]

/-- PUBLISH 1 is sent and `run` is cancelled; the next `connect` fails when the server has already accepted it with a new
session; `run` is called nevertheless. It goes on with the old connection: another message takes identifier 1 and the
PUBACK of the first, still unread on the old connection, is taken for its acknowledgement. -/
def staleOps : List TokioOp :=
  tokioUp ++ [.client (.call (demoPublish .atLeastOnce)), .client (.submit 0), .turn .outgoing 0 true (at' 2), .cancel 0,
    .connect ⟨true, plainConnAck, false, fun _ => true, false, at' 4⟩, .start,
    .client (.call (.publish ⟨[117], by decide⟩ .atLeastOnce false [4] .empty)), .client (.submit 0), .turn .outgoing 0 true (at' 5),
    .arrive [0x40, 0x02, 0x00, 0x01], .turn .read 0 true (at' 6)]

/-- **C68 is false of the code**: `run` goes on with a connection that the server has replaced. The server has sent one
PUBACK, for the first message, and the client takes it for the acknowledgement of the second, which was written to the old
connection. (This is why C66 and C67 assume that `run` is called only after a successful `connect`.) -/
theorem C68_old_connection_violated :
    ∃ tr pre mid post, ∃ m₁ m₂ : Publish, IsTraceWith oneIdOptions tr ∧
      tr = pre ++ [.wrote (.publish m₁) 2 2] ++ mid ++ [.connectFailed .io, .started] ++ post ∧
      mid = [.cancelled, .wrote oneIdOptions.connectPacket 4 4, .read (.connAck ⟨false, .success, .empty⟩),
        .delivered (.connAck ⟨false, .success, .empty⟩)] ∧
      m₁.pkid = some 1 ∧ m₂.pkid = some 1 ∧ m₁.topic ≠ m₂.topic ∧
      (sender oneIdOptions.cleanStart tr).discarded = [m₁] ∧ (sender oneIdOptions.cleanStart tr).acked = [m₂] :=
  ⟨tokioTrace oneIdOptions 0 staleOps, (tokioTrace oneIdOptions 0 staleOps).take 7, _,
    (tokioTrace oneIdOptions 0 staleOps).drop 14,
    ⟨false, .atLeastOnce, false, ⟨[116], by decide⟩, some 1, .empty, [1, 2, 3]⟩,
    ⟨false, .atLeastOnce, false, ⟨[117], by decide⟩, some 1, .empty, [4]⟩,
    .tokio 0 staleOps rfl, rfl, rfl, rfl, rfl, by decide, rfl, rfl⟩

end Mqrstt.Props
