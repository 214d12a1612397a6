import Verif.Spec.Reasons
import Verif.Proof.Calm
import Verif.Proof.PortableBack
import Verif.Props.Blame
import Verif.Props.Liberty
/-!
# Why `run` ends with an error (C112)
-/

namespace Mqrstt
open Mqrstt.Spec _root_.Spec Mqrstt.Props

/-! ## the session -/

theorem release_error {st st2 : State} {id : UInt16} {e : HErr}
    (h : Handler.shown (Handler.release st id) = (st2, .error (.err e))) : e = .packetIdChannelError id ∧ st.pool.closed = true := by
  simp only [Handler.release, State.makePkidAvailable, Pool.markAvailable] at h
  by_cases hc : st.pool.closed = true
  · rw [if_pos hc] at h
    cases h
    exact ⟨rfl, hc⟩
  · rw [if_neg hc] at h
    by_cases hq : st.pool.queue.length < st.pool.cap
    · rw [if_pos hq] at h; cases h
    · rw [if_neg hq] at h; cases h

theorem receive_error {s s' : Sys} {p : Packet} {e : HErr} (h : s.step (.receive p) = some (s', .receivedError p e)) :
    s.alive = true ∧ ∃ st, Handler.incomingState s.handler.state p = (st, .error (.err e)) := by
  have ha : s.alive = true := by
    cases ha : s.alive with
    | true => rfl
    | false => simp [Sys.step, ha] at h
  refine ⟨ha, ?_⟩
  rw [Sys.step_receive ha] at h
  split at h
  all_goals first
    | (cases h; done)
    | (rename_i hs; cases h; exact ⟨_, hs⟩)

theorem receivedError_self {s s' : Sys} {p q : Packet} {e : HErr} (h : s.step (.receive p) = some (s', .receivedError q e)) :
    q = p := by
  have ha : s.alive = true := by
    cases ha : s.alive with
    | true => rfl
    | false => simp [Sys.step, ha] at h
  rw [Sys.step_receive ha] at h
  split at h <;> cases h
  rfl

theorem VRun.session_claim {fl : Flavor} {o : Options} {t : Nat} {tr : List Obs} {v : View} (h : VRun fl (View.init o t) tr v)
    {s' : Sys} {p : Packet} {e : HErr} (hp : p.forSession = true)
    (hid : ∀ q, p = .publish q → (q.pkid.isSome ↔ q.qos ≠ .atMostOnce))
    (hs : v.sys.step (.receive p) = some (s', .receivedError p e)) : SessionClaim o.cleanStart tr p e := by
  obtain ⟨ha, st, hs⟩ := receive_error hs
  obtain ⟨n, r, l, lost, hi, hl⟩ := h.sends.2.inv
  obtain ⟨hu, hacc⟩ := hl ha
  obtain ⟨hsub, hunsub⟩ := h.knows.same ha
  have live := hi.live ha
  have hmem : ∀ q ∈ (sender o.cleanStart tr).unacked, ∀ id, q.pkid = some id → id ∈ l.publishIds := by
    intro q hq id hqi
    exact List.mem_filterMap.mpr ⟨q, hu ▸ hq, hqi⟩
  have gone : ∀ {st : State}, st.pool = v.sys.handler.state.pool → st.pool.closed = true → ClientsGone tr := fun e1 e2 =>
    h.closed.mp (by rw [e1] at e2; exact e2)
  have hnone : ∀ {q : Publish} {id : UInt16}, v.sys.handler.state.stored id = none →
      q ∈ (sender o.cleanStart tr).unacked → q.pkid ≠ some id := by
    intro q id hn hq hqi
    obtain ⟨p', hp'⟩ := live.mem_order.mp (hmem q hq id hqi)
    rw [hn] at hp'
    cases hp'
  cases p with
  | publish q =>
    have hid := hid q rfl
    simp only [Handler.incomingState, Handler.incomingPublish] at hs
    cases e1 : q.qos <;> cases e2 : q.pkid <;> simp [e1, e2] at hs hid
  | pubAck a =>
    simp only [Handler.incomingState, Handler.incomingPubAck] at hs
    rcases State.removeOutgoingPub_eq v.sys.handler.state a.id with ⟨-, hr⟩ | ⟨i, -, hn, hr⟩ | ⟨i, p', hi, -, hr⟩
    · rw [hr] at hs; cases hs
    · rw [hr] at hs; cases hs
      exact ⟨rfl, rfl, fun ⟨q, hq, hqi, _⟩ => hnone hn hq hqi⟩
    · rw [hr] at hs
      obtain ⟨rfl, hc⟩ := release_error hs
      exact ⟨rfl, gone rfl hc⟩
  | pubRec a =>
    simp only [Handler.incomingState, Handler.incomingPubRec] at hs
    rcases State.removeOutgoingPub_eq v.sys.handler.state a.id with ⟨-, hr⟩ | ⟨i, -, hn, hr⟩ | ⟨i, p', hi, -, hr⟩
    · rw [hr] at hs; cases hs
    · rw [hr] at hs; cases hs
      exact ⟨rfl, rfl, fun ⟨q, hq, hqi, _⟩ => hnone hn hq hqi⟩
    · rw [hr] at hs
      simp only at hs
      split at hs <;> cases hs
  | pubRel a => cases hs
  | pubComp a =>
    simp only [Handler.incomingState, Handler.incomingPubComp, State.removeOutgoingRel, IdSet.remove] at hs
    cases hb : v.sys.handler.state.rel.contains a.id with
    | true =>
      simp only [hb, if_true] at hs
      obtain ⟨rfl, hc⟩ := release_error hs
      exact ⟨rfl, gone rfl hc⟩
    | false =>
      simp only [hb, Bool.false_eq_true, if_false] at hs
      cases hs
      refine ⟨rfl, rfl, fun hw => ?_⟩
      have : a.id ∈ v.sys.handler.state.rel := live.mem_rel.mpr (by rw [← hacc]; exact hw)
      simp [this] at hb
  | subAck a =>
    simp only [Handler.incomingState, Handler.incomingSubAck, State.removeOutgoingSub, IdSet.remove] at hs
    cases hb : v.sys.handler.state.sub.contains a.id with
    | true =>
      simp only [hb, if_true] at hs
      obtain ⟨rfl, hc⟩ := release_error hs
      exact ⟨rfl, gone rfl hc⟩
    | false =>
      simp only [hb, Bool.false_eq_true, if_false] at hs
      cases hs
      refine ⟨rfl, rfl, fun hw => ?_⟩
      have : a.id ∈ v.sys.handler.state.sub := (hsub.mem a.id).mpr hw
      simp [this] at hb
  | unsubAck a =>
    simp only [Handler.incomingState, Handler.incomingUnsubAck, State.removeOutgoingUnsub, IdSet.remove] at hs
    cases hb : v.sys.handler.state.unsub.contains a.id with
    | true =>
      simp only [hb, if_true] at hs
      obtain ⟨rfl, hc⟩ := release_error hs
      exact ⟨rfl, gone rfl hc⟩
    | false =>
      simp only [hb, Bool.false_eq_true, if_false] at hs
      cases hs
      refine ⟨rfl, rfl, fun hw => ?_⟩
      have : a.id ∈ v.sys.handler.state.unsub := (hunsub.mem a.id).mpr hw
      simp [this] at hb
  | pingResp => cases hp
  | disconnect d => cases hp
  | _ =>
    cases hs
    exact ⟨rfl, by simp [OutOfPlace, Packet.type]⟩

/-- what is written never makes the session fail with an error -/
theorem VRun.write_claim {fl : Flavor} {o : Options} {t : Nat} {tr : List Obs} {v : View} (h : VRun fl (View.init o t) tr v)
    (ha : v.sys.alive = true) {s' : Sys} {p : Packet} {e : HErr} : v.sys.step (.write true) ≠ some (s', .writtenError p e) := by
  intro hs
  obtain ⟨n, r, l, lost, hi, -⟩ := h.sends.2.inv
  cases hq : v.sys.queue with
  | nil => simp [Sys.step, ha, hq] at hs
  | cons q rest =>
    rcases hi.write_ok ha hq with ⟨st, h1, -, -⟩ | ⟨h1, -⟩
    · simp [Sys.step, ha, hq, Handler.outgoing, h1] at hs
    · simp [Sys.step, ha, hq, Handler.outgoing, h1] at hs

/-! ## the readers -/

theorem BufferPacket.ident {b rest : Bytes} {q : Publish} (h : BufferPacket b (.publish q) rest) :
    q.pkid.isSome ↔ q.qos ≠ .atMostOnce := by
  obtain ⟨_, -, -, _, _, _, _, _, _, _, _, _, _, _, hb⟩ := C105_buffered_partial h
  exact hb.2.2.1

theorem StreamPacket.ident {b rest : Bytes} {q : Publish} (h : StreamPacket b (.publish q) rest) :
    q.pkid.isSome ↔ q.qos ≠ .atMostOnce := by
  obtain ⟨_, -, -, _, _, _, _, _, _, _, _, _, _, _, hb⟩ := C105_streaming_partial h
  exact hb.2.2.1

theorem SmolStream.parse_error {checks : Bool} {b : Bytes} {e : DeErr} (h : SmolStream.parse checks b = .failed e) :
    ∃ rest, Packet.read b = (.error (.err (.de e)), rest) := by
  simp only [SmolStream.parse] at h
  rw [Packet.read]
  split at h
  · cases h
  · rename_i hh; cases h; rw [hh]; exact ⟨_, rfl⟩
  · cases h
  · rename_i hd hl hh
    rw [hh]
    simp only
    split at h
    · split at h <;> cases h
    · rename_i hlen
      rw [if_neg hlen]
      simp only [SmolStream.decode] at h
      split at h
      · cases h
      · rename_i hr; cases h; rw [hr]; exact ⟨_, rfl⟩
      · cases h

theorem bufferBad {b rest : Bytes} {e : DeErr} (h : Packet.read b = (.error (.err (.de e)), rest)) : BufferBad b e := by
  obtain ⟨v, after, hb, h⟩ := C110_buffered_partial b rest e h
  refine ⟨v, after, hb, ?_⟩
  rcases h with ⟨h, -⟩ | ⟨k, len, body, h⟩
  · exact .inl h
  · exact .inr ⟨k, len, body, rest, h⟩

theorem streamBad {b : Bytes} {e : DeErr} (h : Packet.asyncRead b = .error (.de e)) : StreamBad b e :=
  C110_streaming_partial b e h

/-! ## tokio -/

/-- has the server closed the connection -/
def Tokio.Closed (s : Tokio) (closed : Bool) : Prop := ∀ c, s.network = some c → c.eof = closed

theorem Tokio.onPacket_network {s s' : Tokio} {p : Packet} {io : Bool} {T : Times} {obs : List Obs}
    (h : s.onPacket p io T = some (s', obs)) : s'.network = s.network ∨ s'.network = none := by
  simp only [onPacket, finish] at h
  repeat' split at h
  all_goals first
    | (cases h; done)
    | (cases h; exact .inl rfl)
    | (cases h; exact .inr rfl)

theorem Tokio.closed_step (s : Tokio) (closed : Bool) (op : TokioOp) (s' : Tokio) (obs : List Obs) (h : s.Closed closed)
    (hs : s.step op = some (s', obs)) : s'.Closed (closedStep closed (op, obs)) := by
  obtain ⟨sys, options, lastAction, perform, network, run, now⟩ := s
  cases op with
  | connect i =>
    simp only [step, connect, established, noteConnAck] at hs
    simp only [closedStep]
    have hw : ∀ (ok : Nat → Bool) (T : Times) (n : Nat) (ps : List Packet), hasConnected (writePackets ok T n ps) = false := by
      intro ok T n ps
      induction ps generalizing n with
      | nil => rfl
      | cons p ps ih =>
        simp only [writePackets]
        split
        · exact ih _
        · exact ih _
    repeat' split at hs
    all_goals first
      | (cases hs; done)
      | skip
    all_goals
      cases hs
      simp only [hasConnected, List.any_append, List.any_cons, List.any_nil, Bool.or_false, Bool.or_true, Bool.false_or] at hw ⊢
      try rw [hw]
      first
        | exact h
        | (intro c hc; cases hc; rfl)
        | (intro c hc; cases hc)
  | turn b lost io T =>
    show Tokio.Closed s' closed
    simp only [step, turn] at hs
    split at hs
    · split at hs
      · split at hs
        · simp only [onRead] at hs
          split at hs
          · rcases Tokio.onPacket_network hs with e | e
            · intro c hc
              rw [e] at hc
              cases hc
              exact h ‹TokioConn› rfl
            · intro c hc; rw [e] at hc; cases hc
          · cases hs; intro c hc; cases hc
          · split at hs
            · cases hs; intro c hc; cases hc
            · cases hs
          · cases hs; intro c hc; cases hc
        · cases hs; intro c hc; cases hc
        · split at hs
          · simp only [onOutgoing, finish] at hs
            repeat' split at hs
            all_goals first
              | (cases hs; done)
              | (cases hs; intro c hc; cases hc; exact h ‹TokioConn› rfl)
              | (cases hs; intro c hc; cases hc)
          · cases hs
        · split at hs
          · simp only [onTimer, finish] at hs
            repeat' split at hs
            all_goals first
              | (cases hs; done)
              | (cases hs; intro c hc; cases hc; exact h ‹TokioConn› rfl)
              | (cases hs; intro c hc; cases hc)
          · cases hs
      · cases hs
    · cases hs
  | close =>
    show Tokio.Closed s' true
    simp only [step] at hs
    split at hs
    · cases hs; intro c hc; cases hc; rfl
    · cases hs
  | _ =>
    show Tokio.Closed s' closed
    simp only [step] at hs
    repeat' split at hs
    all_goals first
      | (cases hs; done)
      | (cases hs; exact h)
      | (cases hs; intro c hc; cases hc; exact h ‹TokioConn› rfl)
      | (cases hs; intro c hc; cases hc)

theorem Tokio.closed (o : Options) (t : Nat) (ops : List TokioOp) : (tokio o t ops).Closed (serverClosed o t ops) :=
  log_induct closedStep Tokio.Closed Tokio.closed_step ops _ _ fun _ h => by cases h

theorem Tokio.write_claim {p : Packet} {io : Bool} {x : ConnErr} (h : Tokio.writePacket p io = .error x) :
    (x = .io ∧ io = false) ∨ ∃ e, x = .serialization e ∧ p.asyncWrite = .error e := by
  simp only [Tokio.writePacket] at h
  split at h
  · rename_i e hw
    split at h
    · cases h; exact .inr ⟨e, rfl, hw⟩
    · rename_i hio; cases h; exact .inl ⟨rfl, by simpa using hio⟩
  · split at h
    · cases h
    · rename_i hio; cases h; exact .inl ⟨rfl, by simpa using hio⟩

theorem Tokio.sendable_io {p : Packet} (hp : Sendable p) {io : Bool} {x : ConnErr} (h : Tokio.writePacket p io = .error x) :
    x = .io ∧ io = false := by
  have hx := hp.tokio_writes h
  rcases Tokio.write_claim h with h | ⟨e, h, -⟩
  · exact h
  · rw [hx] at h; cases h

theorem tokio_claim {o : Options} {t : Nat} {ops : List TokioOp} {op : TokioOp} {s' : Tokio} {obs : List Obs} {x : ConnErr}
    (h : (tokio o t ops).step op = some (s', obs)) (he : .ended (.error x) ∈ obs) :
    Claim o.cleanStart (tokioTrace o t ops) obs (TokioCut o t ops op)
      (fun e => (tokioRx o t ops).taken = 0 → Bad StreamPacket StreamBad (tokioRx o t ops) e)
      (fun p e => p.asyncWrite = .error e) x := by
  have hv := Tokio.vrun o t ops
  have hcl := hv.closed
  have hclosed := Tokio.closed o t ops
  have hrxed := Tokio.rxed o t ops
  cases op with
  | turn b lost io T =>
    have hwr : (tokio o t ops).sys.alive = true → ∀ {s' p e}, (tokio o t ops).sys.step (.write true) ≠ some (s', .writtenError p e) :=
      hv.write_claim
    have hsub : (tokio o t ops).sys.alive = true → ∀ p ∈ (tokio o t ops).sys.queue, p ∈ submittedIn (tokioTrace o t ops) :=
      queue_submitted hv
    have hsess : ∀ {s' p e}, p.forSession = true → (∀ q, p = .publish q → (q.pkid.isSome ↔ q.qos ≠ .atMostOnce)) →
        (tokio o t ops).sys.step (.receive p) = some (s', .receivedError p e) →
        SessionClaim o.cleanStart (tokioTrace o t ops) p e := hv.session_claim
    have hcl : (tokio o t ops).sys.pool.closed = true → ClientsGone (tokioTrace o t ops) := hcl.mp
    simp only [Tokio.step] at h
    clear hv
    generalize tokioTrace o t ops = tr at *
    generalize hr : tokioRx o t ops = r at *
    generalize tokio o t ops = s at *
    obtain ⟨sys, options, lastAction, perform, network, run, now⟩ := s
    have hio : io = false → TokioCut o t ops (.turn b lost io T) := by rintro rfl; exact .inr (.inl ⟨_, _, _, rfl⟩)
    simp only [Tokio.turn] at h
    split at h
    · rename_i await c
      split at h
      · rename_i hok
        simp only [Bool.and_eq_true] at hok
        have ha := hok.2
        split at h
        · simp only [Tokio.onRead] at h
          split at h
          · rename_i p rest hread
            simp only [Tokio.onPacket, Tokio.finish] at h
            split at h
            · cases h; simp at he
            · cases h; simp at he
            · rename_i n1 n2
              split at h
              · rename_i s2 q reply shown hs
                split at h
                · cases h
                  cases shown <;> simp at he
                · rename_i rp
                  split at h
                  · cases h
                    cases shown <;> simp at he
                  · rename_i er hw
                    cases h
                    obtain ⟨rfl, hf⟩ := Tokio.sendable_io (answer_closed sendable_closed (Sys.step_answer (received_self hs)) _ rfl) hw
                    have : x = .io := by cases shown <;> simpa using he
                    subst this
                    exact hio hf
              · rename_i s2 q er hs
                have hq := receivedError_self hs
                subst hq
                cases h
                have : x = .handler er := by simpa using he
                subst this
                refine ⟨q, rfl, hsess (s' := s2) ?_ ?_ ?_⟩
                · cases q <;> first | rfl | exact absurd rfl n1 | exact absurd rfl (n2 _)
                · rintro q rfl
                  exact StreamPacket.ident hread
                · exact hs
              · cases h; simp at he
              · cases h
          · rename_i er hread
            cases h
            have : x = .deserialization er := by simpa using he
            subst this
            intro h0
            obtain ⟨rest, h1, h2⟩ := hrxed h0
            refine ⟨rest, h1, ?_⟩
            rcases h2 with h2 | ⟨eof, h2⟩
            · cases h2
            · cases h2
              exact streamBad hread
          · rename_i hread
            split at h
            · rename_i heof
              cases h
              have : x = .io := by simpa using he
              subst this
              refine .inr (.inr ⟨⟨_, _, _, rfl⟩, ?_, fun h0 => ?_⟩)
              · rw [← hclosed c rfl]; exact heof
              · rw [hr] at h0 ⊢
                obtain ⟨rest, h1, h2⟩ := hrxed h0
                refine ⟨rest, h1, fun p rest' hp => ?_⟩
                rcases h2 with h2 | ⟨eof, h2⟩
                · cases h2
                · cases h2
                  have hp : Packet.asyncRead rest = .ok (p, rest') := hp
                  rw [show Packet.asyncRead rest = .error .eof from hread] at hp
                  cases hp
            · cases h
          · cases h; simp at he
        · cases h
          have : x = .io := by simpa using he
          subst this
          exact .inl ⟨_, _, _, rfl⟩
        · split at h
          · simp only [Tokio.onOutgoing, Tokio.finish] at h
            split at h
            · split at h
              · rename_i hc
                cases h
                have : x = .noOutgoingPacketSender := by simpa using he
                subst this
                exact hcl hc
              · cases h
            · rename_i p rest hq
              split at h
              · rename_i er hw
                split at h
                · cases h
                  have : x = er := by simpa using he
                  subst this
                  rcases Tokio.write_claim hw with ⟨rfl, hf⟩ | ⟨e, rfl, hf⟩
                  · exact hio hf
                  · exact ⟨p, hsub ha p (by rw [show sys.queue = p :: rest from hq]; exact .head _), hf⟩
                · cases h
              · split at h
                · split at h
                  · cases h; simp at he
                  · cases h; simp at he
                · rename_i hs
                  exact absurd hs (hwr ha)
                · cases h; simp at he
                · cases h
          · cases h
        · split at h
          · simp only [Tokio.onTimer, Tokio.finish] at h
            split at h
            · split at h
              · split at h
                · split at h
                  · cases h; simp at he
                  · rename_i er hw
                    cases h
                    obtain ⟨rfl, hf⟩ := Tokio.sendable_io sendable_closed.pingReq hw
                    have : x = .io := by simpa using he
                    subst this
                    exact hio hf
                · cases h
              · split at h
                · cases h; simp at he
                · rename_i er hw
                  cases h
                  obtain ⟨rfl, hf⟩ := Tokio.sendable_io sendable_closed.timeout hw
                  have : x = .io := by simpa using he
                  subst this
                  exact hio hf
            · cases h
          · cases h
      · cases h
    · cases h
  | connect i =>
    exfalso
    rcases (Tokio.step_vstep h).ended_running he with hr | hr
    · have hr : (tokio o t ops).run.isSome = true := hr
      simp only [Tokio.step, Tokio.connect] at h
      split at h
      · rename_i hg
        simp at hg
        rw [hg.2] at hr
        cases hr
      · cases h
    · cases hr
      generalize hop : TokioOp.connect i = op at h
      have := (Tokio.step_vstep h)
      generalize tokio o t ops = s at *
      obtain ⟨sys, options, lastAction, perform, network, run, now⟩ := s
      subst hop
      simp only [Tokio.step, Tokio.connect, Tokio.established, Tokio.noteConnAck] at h
      have hw : ∀ (ok : Nat → Bool) (T : Times) (n : Nat) (ps : List Packet), .ended (.error .noNetwork) ∉ (Tokio.writePackets ok T n ps) := by
        intro ok T n ps
        induction ps generalizing n with
        | nil => simp [Tokio.writePackets]
        | cons p ps ih =>
          simp only [Tokio.writePackets]
          split
          · simp [ih]
          · exact ih _
      repeat' split at h
      all_goals first
        | (cases h; done)
        | (cases h; simp [hw] at he; done)
  | start =>
    simp only [Tokio.step] at h
    split at h
    · split at h
      · rename_i hn
        cases h
        have : x = .noNetwork := by simpa using he
        subst this
        refine ⟨?_, rfl⟩
        rw [show tokioTrace o t ops = ((Tokio.new o t).runOps ops).2 from rfl, ← hv.up.1]
        show (tokio o t ops).network.isSome = false
        rw [hn]; rfl
      · cases h; simp at he
    · cases h
  | _ =>
    simp only [Tokio.step] at h
    repeat' split at h
    all_goals first
      | (cases h; done)
      | (cases h; simp at he; done)

/-! ## smol -/

theorem Smol.write_claim {p : Packet} {io : Bool} {x : ConnErr} (h : Smol.writePacket p io = .error x) :
    (x = .io ∧ io = false) ∨ ∃ e, x = .serialization e ∧ p.write = .error e := by
  simp only [Smol.writePacket] at h
  split at h
  · rename_i e hw
    cases h; exact .inr ⟨e, rfl, hw⟩
  · split at h
    · cases h
    · rename_i hio; cases h; exact .inl ⟨rfl, by simpa using hio⟩

theorem Smol.sendable_io {p : Packet} (hp : Sendable p) {io : Bool} {x : ConnErr} (h : Smol.writePacket p io = .error x) :
    x = .io ∧ io = false := by
  have hx := hp.smol_writes h
  rcases Smol.write_claim h with h | ⟨e, h, -⟩
  · exact h
  · rw [hx] at h; cases h

theorem Smol.writeAll_io {io : Bool} {x : ConnErr} : ∀ {ps : List Packet}, (∀ p ∈ ps, Sendable p) →
    Smol.writeAll ps io = .error x → x = .io ∧ io = false := by
  intro ps
  induction ps with
  | nil =>
    intro _ h
    simp only [Smol.writeAll] at h
    split at h
    · cases h
    · rename_i hio; cases h; exact ⟨rfl, by simpa using hio⟩
  | cons p ps ih =>
    intro hs h
    have hx := smol_writes_all hs h
    simp only [Smol.writeAll] at h
    split at h
    · cases h; cases hx
    · exact ih (fun q hq => hs q (.tail _ hq)) h

theorem Smol.flush_claim {s s' : Smol} {obs o : List Obs} {io : Bool} {T : Times} {x : ConnErr}
    (hs : ∀ p ∈ s.outgoing, Sendable p) (hobs : .ended (.error x) ∉ obs) (h : s.flushOutgoing obs io T = (s', o))
    (he : .ended (.error x) ∈ o) : x = .io ∧ io = false := by
  simp only [flushOutgoing, finish] at h
  split at h
  · cases h
    simp at he
    exact absurd he hobs
  · rename_i er hw
    cases h
    obtain ⟨rfl, hf⟩ := Smol.writeAll_io hs hw
    simp [hobs] at he
    exact ⟨he, hf⟩

theorem smol_claim {k : Bool} {o : Options} {t : Nat} {ops : List SmolOp} {op : SmolOp} {s' : Smol} {obs : List Obs} {x : ConnErr}
    (h : (smol k o t ops).step op = some (s', obs)) (he : .ended (.error x) ∈ obs) :
    Claim o.cleanStart (smolTrace k o t ops) obs (SmolCut op) (Bad BufferPacket BufferBad (smolRx k o t (ops ++ [op])))
      (fun p e => p.write = .error e) x := by
  have hv := Smol.vrun k o t ops
  have hgood : (smol k o t ops).Good := (Smol.vrun_good k o t ops).2
  have hrx := smolRx_snoc h
  cases op with
  | turn b io T =>
    have hwr : (smol k o t ops).sys.alive = true → ∀ {s' p e}, (smol k o t ops).sys.step (.write true) ≠ some (s', .writtenError p e) :=
      hv.write_claim
    have hsub : (smol k o t ops).sys.alive = true → ∀ p ∈ (smol k o t ops).sys.queue, p ∈ submittedIn (smolTrace k o t ops) :=
      queue_submitted hv
    have hsess : ∀ {s' p e}, p.forSession = true → (∀ q, p = .publish q → (q.pkid.isSome ↔ q.qos ≠ .atMostOnce)) →
        (smol k o t ops).sys.step (.receive p) = some (s', .receivedError p e) →
        SessionClaim o.cleanStart (smolTrace k o t ops) p e := hv.session_claim
    have hcl : (smol k o t ops).sys.pool.closed = true → ClientsGone (smolTrace k o t ops) := hv.closed.mp
    obtain ⟨rest, hst, hnet⟩ := Smol.rxed k o t ops
    have hout := hgood.outgoing
    simp only [Smol.step] at h
    clear hv hgood
    generalize smolTrace k o t ops = tr at *
    generalize smolRx k o t (ops ++ [.turn b io T]) = r' at *
    generalize smolRx k o t ops = r at *
    generalize smol k o t ops = s at *
    have hio : io = false → SmolCut (.turn b io T) := by rintro rfl; exact .inr (.inl ⟨_, _, rfl⟩)
    obtain ⟨buffer, hn⟩ : ∃ buffer, s.network = some buffer := by
      cases hn : s.network with
      | none => simp [Smol.turn, hn] at h
      | some b => exact ⟨b, rfl⟩
    simp only [Smol.turn, hn] at h
    split at h
    · rename_i hok
      simp only [Bool.and_eq_true] at hok
      have ha := hok.1.2
      split at h
      · rename_i chunk
        simp only [Smol.onRead] at h
        split at h
        · rename_i hnil
          cases h
          have : x = .io := by simpa [Smol.finish] using he
          subst this hnil
          exact .inr (.inr ⟨_, _, rfl⟩)
        · split at h
          · cases h
          · split at h
            · rename_i p rest2 hparse
              simp only [Smol.onPacket] at h
              split at h
              · obtain ⟨rfl, hf⟩ := Smol.flush_claim (by simp [hout]) (by simp) (Option.some.inj h) he
                exact hio hf
              · cases h; simp [Smol.finish] at he
              · rename_i n1 n2
                split at h
                · rename_i s2 q reply shown hs
                  have hsend : ∀ y ∈ s.outgoing ++ reply.toList, Sendable y := by
                    intro y hy
                    simp [hout] at hy
                    exact answer_closed sendable_closed (Sys.step_answer (received_self hs)) _ hy
                  obtain ⟨rfl, hf⟩ := Smol.flush_claim (by exact hsend) (by cases shown <;> simp) (Option.some.inj h) he
                  exact hio hf
                · rename_i s2 q er hs
                  have hq := receivedError_self hs
                  subst hq
                  cases h
                  have : x = .handler er := by simpa [Smol.finish] using he
                  subst this
                  refine ⟨q, rfl, hsess (s' := s2) ?_ ?_ ?_⟩
                  · cases q <;> first | rfl | exact absurd rfl n1 | exact absurd rfl (n2 _)
                  · rintro q rfl
                    exact BufferPacket.ident (SmolStream.parse_packet hparse)
                  · exact hs
                · cases h; simp [Smol.finish] at he
                · cases h
            · cases h; cases he
            · rename_i er hparse
              cases h
              have : x = .deserialization er := by simpa [Smol.finish] using he
              subst this
              obtain ⟨rest3, hread⟩ := SmolStream.parse_error hparse
              refine ⟨buffer ++ chunk, ?_, bufferBad hread⟩
              rcases hnet with hnet | hnet
              · rw [hnet] at hn; cases hn
              · rw [hnet] at hn
                cases hn
                rw [hrx]
                simp only [smolRxStep, Smol.finish, readIn]
                simpa using hst.more BufferPacket.more (m := chunk)
            · cases h; simp [Smol.finish] at he
      · cases h
        have : x = .io := by simpa [Smol.finish] using he
        subst this
        exact .inl ⟨_, _, rfl⟩
      · simp only [Smol.onOutgoing, Smol.finish] at h
        split at h
        · split at h
          · rename_i hc
            cases h
            have : x = .noOutgoingPacketSender := by simpa using he
            subst this
            exact hcl hc
          · cases h
        · rename_i p rest hq
          split at h
          · rename_i er hw
            split at h
            · cases h
              have : x = er := by simpa using he
              subst this
              rcases Smol.write_claim hw with ⟨rfl, hf⟩ | ⟨e, rfl, hf⟩
              · exact hio hf
              · exact ⟨p, hsub ha p (by rw [show s.sys.queue = p :: rest from hq]; exact .head _), hf⟩
            · cases h
          · split at h
            · split at h
              · cases h; simp at he
              · cases h; simp at he
            · rename_i hs
              exact absurd hs (hwr ha)
            · cases h; simp at he
            · cases h
      · simp only [Smol.onTimer, Smol.finish] at h
        split at h
        · split at h
          · split at h
            · cases h; simp at he
            · rename_i er hw
              cases h
              obtain ⟨rfl, hf⟩ := Smol.sendable_io sendable_closed.pingReq hw
              have : x = .io := by simpa using he
              subst this
              exact hio hf
          · split at h
            · cases h; simp at he
            · rename_i er hw
              cases h
              obtain ⟨rfl, hf⟩ := Smol.sendable_io sendable_closed.timeout hw
              have : x = .io := by simpa using he
              subst this
              exact hio hf
        · cases h
    · cases h
  | connect i =>
    exfalso
    generalize smol k o t ops = s at *
    simp only [Smol.step, Smol.connect, Smol.established] at h
    repeat' split at h
    all_goals first
      | (cases h; done)
      | (cases h; simp at he; done)
  | start =>
    simp only [Smol.step] at h
    split at h
    · split at h
      · rename_i hn
        cases h
        have : x = .noNetwork := by simpa using he
        subst this
        refine ⟨?_, rfl⟩
        rw [show smolTrace k o t ops = ((Smol.new k o t).runOps ops).2 from rfl, ← hv.up.1]
        show (smol k o t ops).network.isSome = false
        rw [hn]; rfl
      · cases h; simp at he
    · cases h
  | _ =>
    simp only [Smol.step] at h
    repeat' split at h
    all_goals first
      | (cases h; done)
      | (cases h; simp at he; done)

/-! ## connect -/

theorem freeAll_error {e : HErr} : ∀ {ids : List UInt16} {s st : State}, Handler.freeAll s ids = (st, .error (.err e)) →
    ∃ id, e = .packetIdChannelError id := by
  intro ids
  induction ids with
  | nil => intro s st h; cases h
  | cons id ids ih =>
    intro s st h
    simp only [Handler.freeAll] at h
    split at h
    · rename_i hm
      cases h
      simp only [State.makePkidAvailable, Pool.markAvailable] at hm
      by_cases hc : s.pool.closed = true
      · rw [if_pos hc] at hm; cases hm; exact ⟨_, rfl⟩
      · rw [if_neg hc] at hm
        by_cases hq : s.pool.queue.length < s.pool.cap
        · rw [if_pos hq] at hm; cases hm
        · rw [if_neg hq] at hm; cases hm
    · exact ih h

theorem VRun.connAck_claim {fl : Flavor} {o : Options} {t : Nat} {tr : List Obs} {v : View} (h : VRun fl (View.init o t) tr v)
    {s' : Sys} {c d : ConnAck} {e : HErr} (hs : v.sys.step (.connAck c) = some (s', .connectError d e)) :
    (∃ id, e = .packetIdChannelError id) ∧ ClientsGone tr := by
  have ha : v.sys.alive = true := by
    cases ha : v.sys.alive with
    | true => rfl
    | false => simp [Sys.step, ha] at hs
  obtain ⟨n, r, l, lost, hi, -⟩ := h.sends.2.inv
  have hc := hi.connAck ha c
  simp only [Sys.step, ha, if_true] at hs
  cases hx : v.sys.handler.connAck c with
  | mk hd res =>
    rw [hx] at hs hc
    cases res with
    | ok ps => cases ps <;> cases hs
    | error f =>
      cases f with
      | panic => cases hs
      | err e' =>
        obtain rfl : e' = e := by
          simp only [Option.some.injEq, Prod.mk.injEq, Event.connectError.injEq] at hs
          exact hs.2.2
        refine ⟨?_, h.closed.mp (hc.err e' rfl).2.1⟩
        simp only [Handler.connAck] at hx
        split at hx
        · split at hx
          · rename_i hr
            simp only [State.reset] at hr
            split at hr
            · split at hr
              · cases hr; cases hx
              · cases hr
            · cases hr
          · split at hx
            · rename_i hf
              cases hx
              exact freeAll_error hf
            · cases hx
        · cases hx

/-- what is sent again -/
theorem VRun.resent_claim {fl : Flavor} {o : Options} {t : Nat} {tr : List Obs} {v : View} (h : VRun fl (View.init o t) tr v)
    {s' : Sys} {c d : ConnAck} {ps : List Packet} (hs : v.sys.step (.connAck c) = some (s', .connected d ps)) :
    ∀ p ∈ ps, (∃ q ∈ (sender o.cleanStart tr).unacked, p = .publish { q with dup := true }) ∨ Sendable p := by
  have ha : v.sys.alive = true := by
    cases ha : v.sys.alive with
    | true => rfl
    | false => simp [Sys.step, ha] at hs
  obtain ⟨n, r, l, lost, hi, hl⟩ := h.sends.2.inv
  obtain ⟨hu, -⟩ := hl ha
  have hd : d = c := by
    rcases Sys.step_connAck_event hs with ⟨_, h⟩ | h | ⟨_, h⟩ | h <;> simp_all
  subst hd
  obtain ⟨-, -, h1, h2, -⟩ := hi.connAck_event hs
  intro p hp
  cases hr : Ledger.resumed o.cleanStart d with
  | true =>
    rw [h1 hr] at hp
    rcases List.mem_append.mp hp with hp | hp
    · obtain ⟨q, hq, rfl⟩ := List.mem_map.mp hp
      exact .inl ⟨q, hu ▸ hq, rfl⟩
    · obtain ⟨id, -, rfl⟩ := List.mem_map.mp hp
      exact .inr (sendable_closed.pubRel id)
  | false =>
    rw [h2 hr] at hp
    cases hp

theorem Smol.writeAll_claim {io : Bool} {x : ConnErr} : ∀ {ps : List Packet}, Smol.writeAll ps io = .error x →
    (x = .io ∧ io = false) ∨ ∃ p ∈ ps, ∃ e, x = .serialization e ∧ p.write = .error e := by
  intro ps
  induction ps with
  | nil =>
    intro h
    simp only [Smol.writeAll] at h
    split at h
    · cases h
    · rename_i hio; cases h; exact .inl ⟨rfl, by simpa using hio⟩
  | cons p ps ih =>
    intro h
    simp only [Smol.writeAll] at h
    split at h
    · rename_i e hw
      cases h
      exact .inr ⟨p, .head _, e, rfl, hw⟩
    · rcases ih h with h | ⟨q, hq, h⟩
      · exact .inl h
      · exact .inr ⟨q, .tail _ hq, h⟩

theorem Tokio.resent_quiet {x : ConnErr} (ok : Nat → Bool) (T : Times) : ∀ (ps : List Packet) (n : Nat),
    .connectFailed x ∉ Tokio.writePackets ok T n ps := by
  intro ps
  induction ps with
  | nil => intro n; simp [Tokio.writePackets]
  | cons p ps ih =>
    intro n
    simp only [Tokio.writePackets]
    split
    · simp [ih]
    · exact ih _

theorem tokio_connect_claim {o : Options} {t : Nat} {ops : List TokioOp} {i : TokioConnect} {s' : Tokio} {obs : List Obs}
    {x : ConnErr} (h : (tokio o t ops).step (.connect i) = some (s', obs)) (he : .connectFailed x ∈ obs) :
    ConnectClaim o.cleanStart (tokioTrace o t ops) obs (tokio o t ops).options.connectPacket (TokioBroke i) (StreamBad i.bytes)
      (fun p e => p.asyncWrite = .error e) x := by
  have hv := Tokio.vrun o t ops
  have hack : ∀ {s' c d e}, (tokio o t ops).sys.step (.connAck c) = some (s', .connectError d e) →
      (∃ id, e = .packetIdChannelError id) ∧ ClientsGone (tokioTrace o t ops) := hv.connAck_claim
  have hquiet := @Tokio.resent_quiet x
  clear hv
  generalize tokioTrace o t ops = tr at *
  generalize tokio o t ops = s at *
  obtain ⟨sys, options, lastAction, perform, network, run, now⟩ := s
  simp only [Tokio.step, Tokio.connect] at h
  split at h
  · split at h
    · rename_i er hw
      cases h
      obtain rfl : x = er := by simpa using he
      rcases Tokio.write_claim hw with ⟨rfl, hf⟩ | ⟨e, rfl, hf⟩
      · exact .inl hf
      · exact .inl hf
    · split at h
      · rename_i c rest hread
        split at h
        · rename_i hsucc
          simp only [Tokio.established, Tokio.noteConnAck] at h
          split at h
          · split at h
            · cases h
              simp [hquiet] at he
            · rename_i hf
              cases h
              have : x = .io := by simpa [hquiet] using he
              subst this
              exact .inr (.inr (by simpa using hf))
          · rename_i hs
            cases h
            have := by simpa using he
            subst this
            obtain ⟨⟨id, rfl⟩, hg⟩ := hack hs
            exact ⟨c, id, ⟨[_], rfl⟩, hsucc, rfl, hg⟩
          · cases h; simp at he
          · cases h
        · rename_i hne
          cases h
          have : x = .refused c.reason := by simpa using he
          subst this
          exact ⟨c, ⟨[_], rfl⟩, rfl, hne⟩
      · rename_i p rest hne hread
        cases h
        have : x = .notConnAck p := by simpa using he
        subst this
        refine ⟨⟨[_], rfl⟩, ?_⟩
        cases p <;> simp [Packet.type] at hne ⊢
      · rename_i er hread
        cases h
        have : x = .deserialization er := by simpa using he
        subst this
        exact streamBad hread
      · rename_i hread
        split at h
        · rename_i heof
          cases h
          have : x = .io := by simpa using he
          subst this
          refine .inr (.inl ⟨heof, fun p rest hp => ?_⟩)
          have hp : Packet.asyncRead i.bytes = .ok (p, rest) := hp
          rw [hread] at hp
          cases hp
        · cases h
      · cases h; simp at he
  · cases h

theorem smol_connect_claim {k : Bool} {o : Options} {t : Nat} {ops : List SmolOp} {i : SmolConnect} {s' : Smol} {obs : List Obs}
    {x : ConnErr} (h : (smol k o t ops).step (.connect i) = some (s', obs)) (he : .connectFailed x ∈ obs) :
    ConnectClaim o.cleanStart (smolTrace k o t ops) obs (smol k o t ops).options.connectPacket
      (SmolBroke i ∨ Hopeless BufferPacket i.chunks.flatten) (fun _ => False) (fun p e => p.write = .error e) x := by
  have hv := Smol.vrun k o t ops
  have hack : ∀ {s' c d e}, (smol k o t ops).sys.step (.connAck c) = some (s', .connectError d e) →
      (∃ id, e = .packetIdChannelError id) ∧ ClientsGone (smolTrace k o t ops) := hv.connAck_claim
  have hres : ∀ {s' c d ps}, (smol k o t ops).sys.step (.connAck c) = some (s', .connected d ps) →
    ∀ p ∈ ps, (∃ q ∈ (sender o.cleanStart (smolTrace k o t ops)).unacked, p = .publish { q with dup := true }) ∨ Sendable p :=
    hv.resent_claim
  clear hv
  generalize smolTrace k o t ops = tr at *
  generalize smol k o t ops = s at *
  simp only [Smol.step, Smol.connect] at h
  split at h
  · split at h
    · rename_i er hw
      cases h
      obtain rfl : x = er := by simpa using he
      rcases Smol.write_claim hw with ⟨rfl, hf⟩ | ⟨e, rfl, hf⟩
      · exact .inl (.inl hf)
      · exact .inl hf
    · split at h
      · rename_i c rest hread
        split at h
        · rename_i hsucc
          simp only [Smol.established, Smol.noteConnAck] at h
          split at h
          · rename_i hs
            split at h
            · cases h
              simp at he
            · rename_i er hw
              cases h
              obtain rfl : x = er := by simpa using he
              rcases Smol.writeAll_claim hw with ⟨rfl, hf⟩ | ⟨p, hp, e, rfl, hf⟩
              · exact .inl (.inr (.inr hf))
              · rcases hres hs p hp with ⟨q, hq, rfl⟩ | hsend
                · exact .inr ⟨q, hq, hf⟩
                · have := hsend.smol_writes (io := true) (e := .serialization e) (by simp [Smol.writePacket, hf])
                  cases this
          · rename_i hs
            cases h
            have := by simpa using he
            subst this
            obtain ⟨⟨id, rfl⟩, hg⟩ := hack hs
            exact ⟨c, id, ⟨[_], rfl⟩, hsucc, rfl, hg⟩
          · cases h; simp at he
          · cases h
        · rename_i hne
          cases h
          have : x = .refused c.reason := by simpa using he
          subst this
          exact ⟨c, ⟨[_], rfl⟩, rfl, hne⟩
      · rename_i p rest hne hread
        cases h
        have : x = .notConnAck p := by simpa using he
        subst this
        refine ⟨⟨[_], rfl⟩, ?_⟩
        cases p <;> simp [Packet.type] at hne ⊢
      · cases h
      · rename_i hread
        cases h
        have : x = .io := by simpa using he
        subst this
        rcases SmolStream.read_io hread with h | h
        · exact .inl (.inr (.inl h))
        · exact .inr (by simpa using h)
      · cases h; simp at he
      · cases h
  · cases h

end Mqrstt
