import Verif.Spec.Requests
import Verif.Proof.Inbox
import Verif.Proof.Sender
import Verif.Proof.Senders
/-!
# Helper lemmas: requests waiting for SUBACK and UNSUBACK, in terms of what is observed
-/

namespace Mqrstt
open Mqrstt.Spec _root_.Spec

/-! ## the session's sets -/

/-- the identifiers of requests waiting for an answer -/
def State.asks (s : State) : List UInt16 × List UInt16 := (s.sub, s.unsub)

theorem State.removeOutgoingPub_asks (s : State) (id : UInt16) : (s.removeOutgoingPub id).1.asks = s.asks := by
  rcases State.removeOutgoingPub_eq s id with ⟨_, h⟩ | ⟨i, _, _, h⟩ | ⟨i, p, _, _, h⟩ <;> rw [h] <;> rfl

theorem Handler.release_asks (s : State) (id : UInt16) : (Handler.release s id).1.asks = s.asks := by
  unfold Handler.release
  cases e : s.makePkidAvailable id with
  | mk st r =>
    have h : st.asks = s.asks := by
      have := congrArg Prod.fst e
      simp only at this
      rw [← this]; rfl
    cases r <;> exact h

theorem Handler.freeAll_asks : ∀ (ids : List UInt16) (s : State), (Handler.freeAll s ids).1.asks = s.asks
  | [], s => rfl
  | id :: ids, s => by
    unfold Handler.freeAll
    cases e : s.makePkidAvailable id with
    | mk st r =>
      have h : st.asks = s.asks := by
        have := congrArg Prod.fst e
        simp only at this
        rw [← this]; rfl
      cases r with
      | error x => exact h
      | ok x => exact (Handler.freeAll_asks ids st).trans h

/-- what an incoming packet does to the sets -/
def askedAfter (x : List UInt16 × List UInt16) : Packet → List UInt16 × List UInt16
  | .subAck a => ((IdSet.remove a.id x.1).1, x.2)
  | .unsubAck a => (x.1, (IdSet.remove a.id x.2).1)
  | _ => x

theorem Handler.incomingState_asks (s : State) (p : Packet) : (Handler.incomingState s p).1.asks = askedAfter s.asks p := by
  cases p with
  | publish q =>
    simp only [Handler.incomingState, Handler.incomingPublish, askedAfter]
    split
    · rfl
    · split <;> rfl
    · split
      · rfl
      · simp only [State.addIncomingPub, State.asks]
  | pubAck a =>
    simp only [Handler.incomingState, Handler.shown_fst, Handler.incomingPubAck, askedAfter]
    have h := State.removeOutgoingPub_asks s a.id
    cases e : s.removeOutgoingPub a.id with
    | mk st r =>
      rw [e] at h
      rcases r with x | (_ | q)
      · exact h
      · exact h
      · exact (Handler.release_asks st a.id).trans h
  | pubRec a =>
    simp only [Handler.incomingState, Handler.shown_fst, Handler.incomingPubRec, askedAfter]
    have h := State.removeOutgoingPub_asks s a.id
    cases e : s.removeOutgoingPub a.id with
    | mk st r =>
      rw [e] at h
      rcases r with x | (_ | q)
      · exact h
      · exact h
      · simp only
        split <;> exact h
  | pubRel a => rfl
  | pubComp a =>
    simp only [Handler.incomingState, Handler.shown_fst, Handler.incomingPubComp, askedAfter]
    by_cases hb : (s.removeOutgoingRel a.id).2 = true
    · rw [if_pos hb]; exact Handler.release_asks _ _
    · rw [if_neg hb]; rfl
  | subAck a =>
    simp only [Handler.incomingState, Handler.shown_fst, Handler.incomingSubAck, askedAfter]
    by_cases hb : (s.removeOutgoingSub a.id).2 = true
    · rw [if_pos hb]; exact Handler.release_asks _ _
    · rw [if_neg hb]; rfl
  | unsubAck a =>
    simp only [Handler.incomingState, Handler.shown_fst, Handler.incomingUnsubAck, askedAfter]
    by_cases hb : (s.removeOutgoingUnsub a.id).2 = true
    · rw [if_pos hb]; exact Handler.release_asks _ _
    · rw [if_neg hb]; rfl
  | _ => rfl

/-- what writing a packet does to the sets -/
def askedFor (x : List UInt16 × List UInt16) : Packet → List UInt16 × List UInt16
  | .subscribe p => ((IdSet.insert p.id x.1).1, x.2)
  | .unsubscribe p => (x.1, (IdSet.insert p.id x.2).1)
  | _ => x

theorem Handler.outgoingState_asks (s : State) (p : Packet) : (Handler.outgoingState s p).1.asks = askedFor s.asks p := by
  cases p with
  | publish q =>
    simp only [Handler.outgoingState, Handler.outgoingPublish, askedFor]
    split
    · rfl
    · split
      · rfl
      · simp only [State.addOutgoingPub]
        split
        · rfl
        · split <;> rfl
  | _ => rfl

theorem Handler.connAck_asks (h : Handler) (c : ConnAck) (hc : c.reason = .success) :
    (h.connAck c).1.state.asks = ([], []) ∨ (h.connAck c).2 = .error .panic := by
  unfold Handler.connAck
  rw [if_pos hc]
  have hr : ∀ b, (h.state.reset b).1.asks = ([], []) ∨ (h.state.reset b).2 = .error .panic := by
    intro b
    unfold State.reset
    cases b
    · exact .inl rfl
    · simp only [if_true]
      split
      · exact .inr rfl
      · exact .inl rfl
  have hr := hr (c.sessionPresent && !h.cleanStart)
  cases e : h.state.reset (c.sessionPresent && !h.cleanStart) with
  | mk st r =>
    rw [e] at hr
    rcases r with x | ⟨fr, ps⟩
    · rcases hr with hr | hr
      · exact .inl hr
      · simp only [Except.error.injEq] at hr
        subst hr
        exact .inr rfl
    · have hs : st.asks = ([], []) := hr.resolve_right (by simp)
      have hf := Handler.freeAll_asks fr st
      simp only
      cases e2 : Handler.freeAll st fr with
      | mk st' r' =>
        rw [e2] at hf
        cases r' <;> exact .inl (hf.trans hs)

theorem Sys.step_asks {s s' : Sys} {op : Op} {e : Event} (h : s.step op = some (s', e)) (hw : op ≠ .write true)
    (ho : ∀ p, op ≠ .receive p) (hc : ∀ c, op ≠ .connAck c) : s'.handler.state.asks = s.handler.state.asks := by
  cases op with
  | receive p => exact absurd rfl (ho p)
  | connAck c => exact absurd rfl (hc c)
  | write ok =>
    cases ok
    · simp only [Sys.step] at h
      split at h
      · split at h
        · simp at h
        · simp at h; rw [← h.1]
      · simp at h
    · exact absurd rfl hw
  | call q =>
    simp only [Sys.step, Sys.call, Sys.callWith] at h
    repeat' split at h
    all_goals first | (simp at h; done) | (simp only [Option.some.injEq, Prod.mk.injEq] at h; obtain ⟨rfl, -⟩ := h; rfl)
  | submit k =>
    simp only [Sys.step] at h
    repeat' split at h
    all_goals first | (simp at h; done) | (simp only [Option.some.injEq, Prod.mk.injEq] at h; obtain ⟨rfl, -⟩ := h; rfl)
  | abandon k =>
    simp only [Sys.step] at h
    repeat' split at h
    all_goals first | (simp at h; done) | (simp only [Option.some.injEq, Prod.mk.injEq] at h; obtain ⟨rfl, -⟩ := h; rfl)
  | dropClients => simp only [Sys.step, Option.some.injEq, Prod.mk.injEq] at h; obtain ⟨rfl, -⟩ := h; rfl
  | dropNetwork =>
    simp only [Sys.step] at h
    split at h
    · simp only [Option.some.injEq, Prod.mk.injEq] at h; obtain ⟨rfl, -⟩ := h; rfl
    · simp at h

theorem Sys.step_write_asks {s s' : Sys} {e : Event} {p : Packet} (h : s.step (.write true) = some (s', e))
    (he : e = .written p ∨ ∃ x, e = .writtenError p x) : s'.handler.state.asks = askedFor s.handler.state.asks p := by
  simp only [Sys.step] at h
  split at h
  · split at h
    · simp at h
    · rename_i p' rest hq
      simp only [if_true, Handler.outgoing] at h
      have hin := Handler.outgoingState_asks s.handler.state p'
      cases eo : Handler.outgoingState s.handler.state p' with
      | mk st res =>
        rw [eo] at h hin
        rcases res with (x | _) | _ <;>
        · simp only [Option.some.injEq, Prod.mk.injEq] at h
          obtain ⟨rfl, rfl⟩ := h
          simp at he
          try (subst he; exact hin)
  · simp at h

theorem Sys.step_connAck_asks {s s' : Sys} {c : ConnAck} {e : Event} (h : s.step (.connAck c) = some (s', e))
    (hc : c.reason = .success) (ha : s'.alive = true) : s'.handler.state.asks = ([], []) := by
  simp only [Sys.step] at h
  split at h
  · have hi := Handler.connAck_asks s.handler c hc
    cases eo : s.handler.connAck c with
    | mk hd res =>
      rw [eo] at h hi
      rcases res with (x | _) | (_ | ps)
      · simp only [Option.some.injEq, Prod.mk.injEq] at h
        obtain ⟨rfl, -⟩ := h
        exact hi.resolve_right (by simp)
      · simp only [Option.some.injEq, Prod.mk.injEq] at h
        obtain ⟨rfl, -⟩ := h
        simp [Sys.die] at ha
      · simp only [Option.some.injEq, Prod.mk.injEq] at h
        obtain ⟨rfl, -⟩ := h
        exact hi.resolve_right (by simp)
      · simp only [Option.some.injEq, Prod.mk.injEq] at h
        obtain ⟨rfl, -⟩ := h
        exact hi.resolve_right (by simp)
  · simp at h

theorem Sys.step_receive_asks {s s' : Sys} {p : Packet} {e : Event} (h : s.step (.receive p) = some (s', e)) :
    s'.handler.state.asks = askedAfter s.handler.state.asks p := by
  have ha : s.alive = true := by
    cases ha : s.alive
    · simp [Sys.step, ha] at h
    · rfl
  rw [← Handler.incomingState_asks]
  rw [Sys.step_receive ha] at h
  cases eo : Handler.incomingState s.handler.state p with
  | mk st res =>
    rw [eo] at h
    rcases res with f | ⟨reply, sh⟩
    · cases f <;> · simp only [Option.some.injEq, Prod.mk.injEq] at h; obtain ⟨rfl, -⟩ := h; rfl
    · simp only [Option.some.injEq, Prod.mk.injEq] at h; obtain ⟨rfl, -⟩ := h; rfl

/-! ## one step -/

/-- a set and a list of identifiers -/
structure SameIds (x : List UInt16) (y : List UInt16) : Prop where
  sorted : x.Pairwise (· < ·)
  mem : ∀ id, id ∈ x ↔ id ∈ y

theorem SameIds.nil : SameIds [] [] := ⟨.nil, fun _ => Iff.rfl⟩

theorem SameIds.insert {x y : List UInt16} (h : SameIds x y) (id : UInt16) : SameIds (IdSet.insert id x).1 (y ++ [id]) :=
  ⟨IdSet.insert_sorted h.sorted, fun a => by rw [IdSet.insert_mem, h.mem]; simp [or_comm]⟩

theorem SameIds.remove {x y : List UInt16} (h : SameIds x y) (id : UInt16) : SameIds (IdSet.remove id x).1 (y.filter (· ≠ id)) :=
  ⟨IdSet.remove_sorted h.sorted, fun a => by rw [IdSet.mem_remove h.sorted, h.mem]; simp⟩

/-- the session remembers the requests that have been observed -/
structure Knows (v : View) (r : Requests) : Prop where
  running : r.running = v.running
  same : v.sys.alive = true → SameIds v.sys.handler.state.asks.1 r.subscribes ∧ SameIds v.sys.handler.state.asks.2 r.unsubscribes

theorem Knows.keep {v w : View} {r r' : Requests} (h : Knows v r) (hr : r'.running = w.running)
    (hi : w.sys.handler.state.asks = v.sys.handler.state.asks) (ha : w.sys.alive = true → v.sys.alive = true)
    (ho : r'.subscribes = r.subscribes) (hu : r'.unsubscribes = r.unsubscribes) : Knows w r' :=
  ⟨hr, fun a => by rw [hi, ho, hu]; exact h.same (ha a)⟩

theorem Knows.dead {w : View} {r : Requests} (hr : r.running = w.running) (ha : w.sys.alive = false) : Knows w r :=
  ⟨hr, fun a => by rw [ha] at a; cases a⟩

theorem Spec.Requests.onAck_running (r : Requests) (p : Packet) : (r.onAck p).running = r.running := by cases p <;> rfl

theorem Spec.Requests.onWrote_running (r : Requests) (p : Packet) : (r.onWrote p).running = r.running := by cases p <;> rfl

theorem Knows.read {v w : View} {r : Requests} {p : Packet} {e : Event} (h : Knows v r) (ha : v.sys.alive = true)
    (hs : v.sys.step (.receive p) = some (w.sys, e)) (hr : r.running = w.running) : Knows w (r.onAck p) := by
  refine ⟨(r.onAck_running p).trans hr, fun _ => ?_⟩
  rw [Sys.step_receive_asks hs]
  obtain ⟨h1, h2⟩ := h.same ha
  cases p <;> first | exact ⟨h1, h2⟩ | exact ⟨h1.remove _, h2⟩ | exact ⟨h1, h2.remove _⟩

theorem Knows.wrote {v w : View} {r : Requests} {p : Packet} {e : Event} (h : Knows v r) (ha : v.sys.alive = true)
    (hs : v.sys.step (.write true) = some (w.sys, e)) (he : e = .written p ∨ ∃ x, e = .writtenError p x)
    (hr : r.running = w.running) : Knows w (r.onWrote p) := by
  refine ⟨(r.onWrote_running p).trans hr, fun _ => ?_⟩
  rw [Sys.step_write_asks hs he]
  obtain ⟨h1, h2⟩ := h.same ha
  cases p <;> first | exact ⟨h1, h2⟩ | exact ⟨h1.insert _, h2⟩ | exact ⟨h1, h2.insert _⟩

theorem shownObs_requests {r : Requests} {p : Packet} {b : Bool} (hr : r.running = true) :
    (shownObs p b).foldl Requests.next r = r.onAck p := by
  cases b <;> simp [shownObs, Requests.next, hr]

/-- packets that ask for nothing -/
def noRequest : Packet → Bool
  | .subscribe _ => false
  | .unsubscribe _ => false
  | _ => true

theorem onWrote_other {r : Requests} {p : Packet} (h : noRequest p = true) : r.onWrote p = r := by
  cases p <;> first | rfl | simp [noRequest] at h

theorem wrotes_requests {T : Times} : ∀ (ws : List Packet) (r : Requests), (∀ p ∈ ws, noRequest p = true) →
    (wrotes T ws).foldl Requests.next r = r
  | [], _, _ => rfl
  | p :: ws, r, h => by
    simp only [wrotes, List.map_cons, List.foldl_cons, Requests.next]
    rw [onWrote_other (h p List.mem_cons_self)]
    exact wrotes_requests ws r fun q hq => h q (List.mem_cons_of_mem _ hq)

theorem resent_noRequest {p : Packet} (h : p.resent) : noRequest p = true := by
  cases p <;> first | rfl | simp [Packet.resent] at h

theorem answer_noRequest {p : Packet} {reply : Option Packet} {shown : Bool} (h : Sys.Answer p reply shown) :
    ∀ q ∈ reply.toList, noRequest q = true := by
  cases h <;> simp [noRequest]

theorem VStep.knows {fl : Flavor} {v w : View} {o : List Obs} {r : Requests} (h : VStep fl v o w) (hk : Knows v r) :
    Knows w (o.foldl Requests.next r) := by
  have hx := hk.running
  have notWrite : ∀ {op : Op}, op.ofClient = true → op ≠ .write true := by
    intro op h e; subst e; simp [Op.ofClient] at h
  have notRead : ∀ {op : Op} (p : Packet), op.ofClient = true → op ≠ .receive p := by
    intro op p h e; subst e; simp [Op.ofClient] at h
  have notAck : ∀ {op : Op} (c : ConnAck), op.ofClient = true → op ≠ .connAck c := by
    intro op p h e; subst e; simp [Op.ofClient] at h
  cases h
  case client hc hs =>
    exact hk.keep hx (Sys.step_asks hs (notWrite hc) (fun p => notRead p hc) (fun c => notAck c hc)) (Sys.step_alive hs) rfl rfl
  case drop hs => exact hk.keep hx (Sys.step_asks hs (by simp) (by simp) (by simp)) (Sys.step_alive hs) rfl rfl
  case noNetwork hr _ _ => exact hk.keep hr.symm rfl (fun x => x) rfl rfl
  case start => exact hk.keep rfl rfl (fun x => x) rfl rfl
  case quiet => exact hk
  case cancel => exact hk.keep rfl rfl (fun x => x) rfl rfl
  case wait => exact hk.keep hx rfl (fun x => x) rfl rfl
  case readPing hR =>
    have hr : r.running = true := hx.trans hR.running
    simp only [List.foldl_cons, List.foldl_nil, Requests.next, hr, if_true]
    exact hk.keep hx rfl (fun x => x) rfl rfl
  case readPingFail hR _ _ =>
    have hr : r.running = true := hx.trans hR.running
    simp only [List.foldl_cons, List.foldl_nil, Requests.next, hr, if_true]
    exact hk.keep rfl rfl (fun x => x) rfl rfl
  case readDisc hR =>
    have hr : r.running = true := hx.trans hR.running
    simp only [List.foldl_cons, List.foldl_nil, Requests.next, hr, if_true]
    exact hk.keep rfl rfl (fun x => x) rfl rfl
  case accepted hR hp hs =>
    have hr : r.running = true := hx.trans hR.running
    rw [List.foldl_append, shownObs_requests hr, wrotes_requests _ _ (answer_noRequest (Sys.step_answer hs))]
    exact hk.read hR.alive hs hx
  case acceptedFail hR hp he hs =>
    rename_i T p sys reply shown e
    have hr : r.running = true := hx.trans hR.running
    rw [List.foldl_append, shownObs_requests hr]
    have := hk.read (w := { v with sys := sys }) hR.alive hs hx
    exact ⟨rfl, this.same⟩
  case refusedPacket hR hp hs =>
    rename_i T p sys e
    have hr : r.running = true := hx.trans hR.running
    simp only [List.foldl_cons, List.foldl_nil, Requests.next, hr, if_true]
    have := hk.read (w := { v with sys := sys }) hR.alive hs hx
    exact ⟨rfl, this.same⟩
  case readPanic hR hp hs => exact .dead rfl (Sys.step_panicked_alive hs)
  case failed => exact hk.keep rfl rfl (fun x => x) rfl rfl
  case crashed hR => exact .dead rfl rfl
  case outFail hR he hs =>
    exact hk.keep rfl (Sys.step_asks hs (by simp) (by simp) (by simp)) (Sys.step_alive hs) rfl rfl
  case outOk hR hs hd => exact hk.wrote hR.alive hs (.inl rfl) hx
  case outDisc hR hs hd =>
    rename_i T p sys
    have := hk.wrote (w := { v with sys := sys }) hR.alive hs (.inl rfl) hx
    exact ⟨rfl, this.same⟩
  case outErr hR hs =>
    rename_i T p sys e
    have := hk.wrote (w := { v with sys := sys }) hR.alive hs (.inr ⟨_, rfl⟩) hx
    exact ⟨rfl, this.same⟩
  case outPanic hR hq hs => exact .dead rfl (Sys.step_panicked_alive hs)
  case pingReq hR _ _ _ => exact hk.keep hx rfl (fun x => x) rfl rfl
  case timeout hR _ _ => exact hk.keep rfl rfl (fun x => x) rfl rfl
  case idleTimeout hR _ _ _ => exact hk.keep rfl rfl (fun x => x) rfl rfl
  case connectFailed hr ha _ ho =>
    rcases ho with rfl | ⟨c, a, b, rfl⟩ <;> exact hk.keep hx rfl (fun x => x) rfl rfl
  case refused hr ha _ hc =>
    have hrun : r.running = false := hx.trans hr
    simp only [List.foldl_cons, List.foldl_nil, Requests.next, Requests.onWrote, hrun, Bool.false_eq_true, if_false, hc]
    exact hk.keep hx rfl (fun x => x) rfl rfl
  case notConnAck hr ha htm hc =>
    rename_i T p cn a b
    have hrun : r.running = false := hx.trans hr
    simp only [List.foldl_cons, List.foldl_nil, Requests.next, Requests.onWrote, hrun, Bool.false_eq_true, if_false]
    cases p <;> first | exact hk.keep hx rfl (fun x => x) rfl rfl | exact absurd rfl (hc _)
  case connectCrashed hr ha _ => exact .dead hx rfl
  case established hr ha htm hc hs hw hall =>
    rename_i T cn a b c ps ws sys
    have hrun : r.running = false := hx.trans hr
    have hres := fun p hp => resent_noRequest (Sys.step_connected_resent hs p (hw.subset hp))
    rw [List.foldl_append, List.foldl_append, wrotes_requests _ _ hres]
    simp only [List.foldl_cons, List.foldl_nil, Requests.next, Requests.onWrote, hrun, Bool.false_eq_true, if_false, hc, if_true]
    refine ⟨hr.symm, fun hal => ?_⟩
    show SameIds sys.handler.state.asks.1 _ ∧ SameIds sys.handler.state.asks.2 _
    rw [Sys.step_connAck_asks hs hc hal]
    exact ⟨.nil, .nil⟩
  case establishFail hr ha htm hc hs hw hnone =>
    rename_i T cn a b e c ps ws sys
    have hrun : r.running = false := hx.trans hr
    have hres := fun p hp => resent_noRequest (Sys.step_connected_resent hs p (hw.subset hp))
    rw [List.foldl_append, List.foldl_append, wrotes_requests _ _ hres]
    simp only [List.foldl_cons, List.foldl_nil, Requests.next, Requests.onWrote, hrun, Bool.false_eq_true, if_false, hc, if_true]
    refine ⟨hr.symm, fun hal => ?_⟩
    show SameIds sys.handler.state.asks.1 _ ∧ SameIds sys.handler.state.asks.2 _
    rw [Sys.step_connAck_asks hs hc hal]
    exact ⟨.nil, .nil⟩
  case establishErr hr ha htm hc hs =>
    rename_i T cn a b e c sys
    have hrun : r.running = false := hx.trans hr
    simp only [List.foldl_cons, List.foldl_nil, Requests.next, Requests.onWrote, hrun, Bool.false_eq_true, if_false, hc, if_true]
    refine ⟨hr.symm, fun hal => ?_⟩
    show SameIds sys.handler.state.asks.1 _ ∧ SameIds sys.handler.state.asks.2 _
    rw [Sys.step_connAck_asks hs hc hal]
    exact ⟨.nil, .nil⟩
  case establishPanic hr ha htm hc hs =>
    have hrun : r.running = false := hx.trans hr
    simp only [List.foldl_cons, List.foldl_nil, Requests.next, Requests.onWrote, hrun, Bool.false_eq_true, if_false, hc, if_true]
    exact .dead hr.symm (Sys.step_panicked_alive hs)

theorem VRun.knows {fl : Flavor} {o : Options} {t : Nat} {tr : List Obs} {w : View} (h : VRun fl (View.init o t) tr w) :
    Knows w (requests tr) := by
  refine h.induct (fun tr w => Knows w (requests tr)) ⟨rfl, fun _ => ⟨.nil, .nil⟩⟩ ?_
  intro tr w ob w' _ ih hs
  unfold requests
  rw [List.foldl_append]
  exact hs.knows ih

/-! ## reading an acknowledgement -/

/-- what is observed of a packet that the session has accepted or refused -/
theorem VRun.readAck {fl : Flavor} {o : Options} {t : Nat} {tr : List Obs} {w : View} (h : VRun fl (View.init o t) tr w)
    {pre post : List Obs} {p : Packet} (e : tr = pre ++ .read p :: post) (hr : isRunning pre = true)
    (hp : p.type ≠ .connAck ∧ p.type ≠ .pingResp ∧ p.type ≠ .disconnect) :
    ∃ v, VRun fl (View.init o t) pre v ∧ v.sys.alive = true ∧
      (∀ s' reply, v.sys.step (.receive p) = some (s', .received p reply true) → [.delivered p] <+: post) ∧
      (∀ s' x, v.sys.step (.receive p) = some (s', .receivedError p x) → [.ended (.error (.handler x))] <+: post) := by
  obtain ⟨v1, v2, tr1, o1, o2, tr2, h1, h2, -, rfl, rfl⟩ := h.split e
  have pc : ∀ c, p ≠ .connAck c := by rintro c rfl; exact hp.1 rfl
  have pp : p ≠ .pingResp := by rintro rfl; exact hp.2.1 rfl
  have pd : ∀ d, p ≠ .disconnect d := by rintro d rfl; exact hp.2.2 rfl
  have : AllPos (fun o1 x o2 => x = .read p →
      (o1 = [] ∧ v1.sys.alive = true ∧
        (∀ s' reply, v1.sys.step (.receive p) = some (s', .received p reply true) → [.delivered p] <+: o2) ∧
        (∀ s' x, v1.sys.step (.receive p) = some (s', .receivedError p x) → [.ended (.error (.handler x))] <+: o2)) ∨
      (v1.running = false ∧ o1.foldl runStep false = false)) (o1 ++ .read p :: o2) := by
    generalize o1 ++ Obs.read p :: o2 = ob at h2
    cases h2
    case accepted hR hpp hs =>
      rename_i T p' sys reply shown
      have ha := hR.alive
      cases shown <;> cases reply <;> simp [shownObs, wrotes] <;> rintro rfl <;> left <;> simp [hs, ha]
    case acceptedFail hR hpp he hs =>
      rename_i T p' sys reply shown e
      have ha := hR.alive
      cases shown <;> simp [shownObs] <;> rintro rfl <;> left <;> simp [hs, ha]
    case refusedPacket hR _ hs =>
      have ha := hR.alive
      simp
      rintro rfl
      left
      simp [hs, ha]
    case readPanic hR _ hs =>
      have ha := hR.alive
      simp
      rintro rfl
      left
      simp [hs, ha]
    case connectFailed ho => rcases ho with rfl | ⟨_, _, _, rfl⟩ <;> simp
    case established => simp [Ne.symm (pc _)]; exact allPos_wrotes (by simp) (by simp)
    case establishFail => simp [Ne.symm (pc _)]; exact allPos_wrotes (by simp) (by simp)
    case notConnAck hr _ _ _ => simp [hr, runStep]
    all_goals simp [Ne.symm pp, Ne.symm (pd _), Ne.symm (pc _)]
  rcases this _ _ _ rfl rfl with ⟨rfl, ha, g1, g2⟩ | ⟨h3, h4⟩
  · rw [List.append_nil] at hr ⊢
    exact ⟨v1, h1, ha, fun s' reply hs => (g1 s' reply hs).trans (List.prefix_append _ _),
      fun s' x hs => (g2 s' x hs).trans (List.prefix_append _ _)⟩
  · rw [isRunning_append, ← h1.up.2, h3, h4] at hr
    simp at hr

end Mqrstt
