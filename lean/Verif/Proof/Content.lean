import Verif.Spec.Content
import Verif.Proof.Session
/-!
# The session does not look at the content of messages (C119)
-/

namespace Mqrstt
open Mqrstt.Spec

namespace Rw

variable (w : Rewrite)

def state (s : State) : State := { s with slots := s.slots.map fun o => o.map w.publish }
def handler (h : Handler) : Handler := { h with state := state w h.state }
def sys (s : Sys) : Sys := { s with handler := handler w s.handler, pending := s.pending.map w.packet, queue := s.queue.map w.packet }

theorem strWireLen_topic (t : Str) : strWireLen (w.topic t) = strWireLen t := by
  simp only [strWireLen, Str.length, w.topicLength]

theorem length_topic (t : Str) : (w.topic t).length = t.length := by
  simp only [Str.length, w.topicLength]

theorem publish_wireLen (p : Publish) : (w.publish p).wireLen = p.wireLen := by
  simp only [Publish.wireLen, Rewrite.publish, strWireLen_topic, w.payloadLength, w.propsLength]
  rfl

theorem validate (m : Nat) (p : Packet) : (w.packet p).validate m = p.validate m := by
  cases p with
  | publish p =>
    have e1 := publish_wireLen w p
    have e2 : (w.publish p).topic.length = p.topic.length := length_topic w p.topic
    show (w.publish p).validate m = p.validate m
    unfold Publish.validate
    rw [e1, e2]
  | subscribe p =>
    show Subscribe.validate { p with props := w.props p.props, topics := p.topics.map fun t => (w.topic t.1, t.2) } m = p.validate m
    have e1 : Subscribe.wireLen { p with props := w.props p.props, topics := p.topics.map fun t => (w.topic t.1, t.2) } = p.wireLen := by
      simp only [Subscribe.wireLen, w.propsLength, List.map_map, Function.comp_def, strWireLen_topic]
    unfold Subscribe.validate
    rw [e1]
    congr 1
    simp only [List.find?_map, Function.comp_def, length_topic]
    cases p.topics.find? _ <;> simp [length_topic]
  | unsubscribe p =>
    show Unsubscribe.validate { p with props := w.props p.props, topics := p.topics.map w.topic } m = p.validate m
    have e1 : Unsubscribe.wireLen { p with props := w.props p.props, topics := p.topics.map w.topic } = p.wireLen := by
      simp only [Unsubscribe.wireLen, w.propsLength, List.map_map, Function.comp_def, strWireLen_topic]
    unfold Unsubscribe.validate
    rw [e1]
    congr 1
    simp only [List.find?_map, Function.comp_def, length_topic]
    cases p.topics.find? _ <;> simp [length_topic]
  | _ => rfl

theorem request_takesId (r : Request) : (w.request r).takesId = r.takesId := by
  cases r with
  | publish t q re pa pr => cases q <;> rfl
  | _ => rfl

theorem request_packet (r : Request) (id : Option UInt16) : (w.request r).packet id = (r.packet id).map w.packet := by
  cases r <;> cases id <;> rfl

theorem packet_type (p : Packet) : (w.packet p).type = p.type := by
  cases p <;> rfl

theorem getElem? (l : List (Option Publish)) (i : Nat) :
    (l.map fun o => o.map w.publish)[i]? = (l[i]?).map fun o => o.map w.publish := by simp

theorem slotIndex (s : State) (id : UInt16) : (state w s).slotIndex id = s.slotIndex id := by
  simp [State.slotIndex, state]

theorem stored (s : State) (id : UInt16) : (state w s).stored id = (s.stored id).map w.publish := by
  simp only [State.stored, slotIndex]
  cases s.slotIndex id with
  | none => rfl
  | some i =>
    simp only [state, getElem?]
    cases s.slots[i]? with
    | none => rfl
    | some o => cases o <;> rfl

theorem republish (s : State) (ids : List UInt16) : (state w s).republish ids = (s.republish ids).map (·.map w.packet) := by
  induction ids with
  | nil => rfl
  | cons id ids ih =>
    simp only [State.republish, stored, ih]
    cases s.stored id with
    | none => rfl
    | some p => cases s.republish ids <;> rfl

theorem addOutgoingPub (s : State) (id : UInt16) (p : Publish) :
    (state w s).addOutgoingPub id (w.publish p) = (state w (s.addOutgoingPub id p).1, (s.addOutgoingPub id p).2) := by
  simp only [State.addOutgoingPub, slotIndex]
  cases s.slotIndex id with
  | none => rfl
  | some i =>
    simp only [state, getElem?]
    cases h : s.slots[i]? with
    | none => simp [List.map_set]
    | some o => cases o <;> simp [List.map_set]

theorem removeOutgoingPub (s : State) (id : UInt16) :
    (state w s).removeOutgoingPub id = (state w (s.removeOutgoingPub id).1, (s.removeOutgoingPub id).2.map (·.map w.publish)) := by
  have e1 : ({ state w s with order := (state w s).order.erase id } : State) = state w { s with order := s.order.erase id } := rfl
  simp only [State.removeOutgoingPub, e1, slotIndex]
  cases State.slotIndex _ id with
  | none => rfl
  | some i =>
    simp only [state, getElem?]
    cases h : s.slots[i]? with
    | none => rfl
    | some o =>
      cases o
      · rfl
      · simp [List.map_set, Except.map]

theorem makePkidAvailable (s : State) (id : UInt16) :
    (state w s).makePkidAvailable id = (state w (s.makePkidAvailable id).1, (s.makePkidAvailable id).2) := rfl

theorem release (s : State) (id : UInt16) :
    Handler.release (state w s) id = (state w (Handler.release s id).1, (Handler.release s id).2) := by
  simp only [Handler.release, makePkidAvailable]
  rcases s.makePkidAvailable id with ⟨t, r | r⟩ <;> rfl

theorem freeAll : ∀ (ids : List UInt16) (s : State),
    Handler.freeAll (state w s) ids = (state w (Handler.freeAll s ids).1, (Handler.freeAll s ids).2)
  | [], _ => rfl
  | id :: ids, s => by
    simp only [Handler.freeAll, makePkidAvailable]
    rcases s.makePkidAvailable id with ⟨t, r | r⟩
    · rfl
    · exact freeAll ids t

/-- a result with the state rewritten -/
abbrev fst {α : Type} (r : State × α) : State × α := (state w r.1, r.2)

theorem shown (r : State × Except HFail (Option Packet)) : Handler.shown (fst w r) = fst w (Handler.shown r) := by
  rcases r with ⟨t, r | r⟩ <;> rfl

theorem removeOutgoingRel (s : State) (id : UInt16) : (state w s).removeOutgoingRel id = fst w (s.removeOutgoingRel id) := rfl
theorem removeOutgoingSub (s : State) (id : UInt16) : (state w s).removeOutgoingSub id = fst w (s.removeOutgoingSub id) := rfl
theorem removeOutgoingUnsub (s : State) (id : UInt16) : (state w s).removeOutgoingUnsub id = fst w (s.removeOutgoingUnsub id) := rfl

theorem released (x : State × Bool) (id : UInt16) (e : HFail) :
    (if x.2 then Handler.release (state w x.1) id else (state w x.1, .error e)) =
      fst w (if x.2 then Handler.release x.1 id else (x.1, .error e)) := by
  obtain ⟨t, b⟩ := x
  cases b
  · rfl
  · exact release w t id

theorem eraseIdx_map (l : List Packet) (k : Nat) : (l.map w.packet).eraseIdx k = (l.eraseIdx k).map w.packet := by
  induction l generalizing k with
  | nil => rfl
  | cons x l ih => cases k <;> simp [ih]

theorem incoming (s : State) (p : Packet) :
    Handler.incomingState (state w s) (w.packet p) = fst w (Handler.incomingState s p) := by
  cases p with
  | publish p =>
    obtain ⟨dup, qos, retain, topic, pkid, props, payload⟩ := p
    cases qos <;> cases pkid <;> rfl
  | pubAck a =>
    have : Handler.incomingPubAck (state w s) a = fst w (Handler.incomingPubAck s a) := by
      simp only [Handler.incomingPubAck, removeOutgoingPub]
      rcases s.removeOutgoingPub a.id with ⟨t, r | _ | r⟩
      · rfl
      · rfl
      · exact release w t a.id
    simp only [Rewrite.packet, Handler.incomingState, this, shown]
  | pubRec a =>
    have : Handler.incomingPubRec (state w s) a = fst w (Handler.incomingPubRec s a) := by
      simp only [Handler.incomingPubRec, removeOutgoingPub]
      rcases s.removeOutgoingPub a.id with ⟨t, r | _ | r⟩
      · rfl
      · rfl
      · simp only [Except.map, Option.map]
        split <;> rfl
    simp only [Rewrite.packet, Handler.incomingState, this, shown]
  | pubRel a => rfl
  | pubComp a =>
    have : Handler.incomingPubComp (state w s) a = fst w (Handler.incomingPubComp s a) := by
      simp only [Handler.incomingPubComp, removeOutgoingRel]
      exact released w (s.removeOutgoingRel a.id) _ _
    simp only [Rewrite.packet, Handler.incomingState, this, shown]
  | subAck a =>
    have : Handler.incomingSubAck (state w s) a = fst w (Handler.incomingSubAck s a) := by
      simp only [Handler.incomingSubAck, removeOutgoingSub]
      exact released w (s.removeOutgoingSub a.id) _ _
    simp only [Rewrite.packet, Handler.incomingState, this, shown]
  | unsubAck a =>
    have : Handler.incomingUnsubAck (state w s) a = fst w (Handler.incomingUnsubAck s a) := by
      simp only [Handler.incomingUnsubAck, removeOutgoingUnsub]
      exact released w (s.removeOutgoingUnsub a.id) _ _
    simp only [Rewrite.packet, Handler.incomingState, this, shown]
  | _ => rfl

theorem outgoing (s : State) (p : Packet) :
    Handler.outgoingState (state w s) (w.packet p) = fst w (Handler.outgoingState s p) := by
  cases p with
  | publish p =>
    obtain ⟨dup, qos, retain, topic, pkid, props, payload⟩ := p
    cases qos <;> cases pkid <;> first | rfl | exact addOutgoingPub w s _ _
  | _ => rfl

theorem reset (s : State) (b : Bool) :
    (state w s).reset b = (state w (s.reset b).1, (s.reset b).2.map fun r => (r.1, r.2.map w.packet)) := by
  cases b with
  | false => simp [State.reset, state, Except.map]
  | true =>
    simp only [State.reset, if_true, republish]
    have e : (state w s).order = s.order := rfl
    rw [e]
    cases s.republish s.order with
    | none => rfl
    | some ps =>
      simp only [Option.map, Except.map, List.map_append, List.map_map]
      rfl

theorem connAck (h : Handler) (c : ConnAck) :
    (handler w h).connAck c = (handler w (h.connAck c).1, (h.connAck c).2.map fun r => r.map fun ps => ps.map w.packet) := by
  simp only [Handler.connAck]
  split
  · have e : (handler w h).state.reset (c.sessionPresent && !(handler w h).cleanStart) = _ :=
      reset w h.state (c.sessionPresent && !h.cleanStart)
    rw [e]
    rcases h.state.reset (c.sessionPresent && !h.cleanStart) with ⟨t, r | ⟨f, ps⟩⟩
    · rfl
    · simp only [Except.map, freeAll]
      rcases Handler.freeAll t f with ⟨u, r | r⟩ <;> rfl
  · rfl

theorem step (s : Sys) (o : Op) : (sys w s).step (w.op o) = (s.step o).map fun r => (sys w r.1, w.event r.2) := by
  cases o with
  | call r =>
    have hw : ∀ (s : Sys) (id : Option UInt16),
        (sys w s).callWith (w.request r) id = (s.callWith r id).map fun r => (sys w r.1, w.event r.2) := by
      intro s id
      simp only [Sys.callWith, request_packet]
      cases r.packet id with
      | none => rfl
      | some p =>
        simp only [Option.map, validate]
        have e : (sys w s).maxPacketSize = s.maxPacketSize := rfl
        rw [e]
        cases p.validate s.maxPacketSize with
        | error e => rfl
        | ok u =>
          have e : (sys w s).alive = s.alive := rfl
          simp only [e]
          cases s.alive
          · rfl
          · simp [sys, Rewrite.event]
    have e1 : (sys w s).pool = s.pool := rfl
    have e2 : (sys w s).alive = s.alive := rfl
    simp only [Rewrite.op, Sys.step, Sys.call, e1, e2, request_takesId]
    split
    · rfl
    · split
      · split
        · exact hw (s.withPool _) _
        · split <;> rfl
      · exact hw s none
  | submit k =>
    have e2 : (sys w s).alive = s.alive := rfl
    simp only [Rewrite.op, Sys.step, e2]
    simp only [sys, List.getElem?_map, List.length_map]
    cases s.pending[k]? with
    | none => rfl
    | some p =>
      simp only [Option.map]
      split
      · split
        · simp [sys, Rewrite.event, eraseIdx_map]
        · rfl
      · simp [sys, Rewrite.event, eraseIdx_map]
  | abandon k =>
    simp only [Rewrite.op, Sys.step]
    simp only [sys, List.getElem?_map]
    cases s.pending[k]? with
    | none => rfl
    | some p => simp [sys, Rewrite.event, eraseIdx_map]
  | dropClients => rfl
  | dropNetwork =>
    have e2 : (sys w s).alive = s.alive := rfl
    simp only [Rewrite.op, Sys.step, e2]
    split <;> rfl
  | write ok =>
    have e2 : (sys w s).alive = s.alive := rfl
    have e3 : (sys w s).queue = s.queue.map w.packet := rfl
    simp only [Rewrite.op, Sys.step, e2, e3]
    split
    · cases s.queue with
      | nil => rfl
      | cons p rest =>
        simp only [List.map_cons]
        cases ok with
        | false => rfl
        | true =>
          simp only [if_true]
          have e4 : (sys w s).handler.outgoing (w.packet p) = (handler w (s.handler.outgoing p).1, (s.handler.outgoing p).2) := by
            have := outgoing w s.handler.state p
            simp only [Handler.outgoing]
            have e5 : (sys w s).handler.state = state w s.handler.state := rfl
            rw [e5, this]
            rfl
          rw [e4]
          rcases s.handler.outgoing p with ⟨h, (e | _) | u⟩ <;> rfl
    · rfl
  | receive p =>
    have e2 : (sys w s).alive = s.alive := rfl
    simp only [Rewrite.op, Sys.step, e2]
    split
    · have e4 : (sys w s).handler.incoming (w.packet p) = (handler w (s.handler.incoming p).1, (s.handler.incoming p).2) := by
        have := incoming w s.handler.state p
        simp only [Handler.incoming]
        have e5 : (sys w s).handler.state = state w s.handler.state := rfl
        rw [e5, this]
        rfl
      rw [e4]
      rcases s.handler.incoming p with ⟨h, (e | _) | ⟨reply, sh⟩⟩ <;> rfl
    · rfl
  | connAck c =>
    have e2 : (sys w s).alive = s.alive := rfl
    have e3 : (sys w s).handler = handler w s.handler := rfl
    simp only [Rewrite.op, Sys.step, e2, e3, connAck]
    split
    · rcases s.handler.connAck c with ⟨h, (e | _) | _ | ps⟩ <;> rfl
    · rfl

theorem run (s : Sys) (ops : List Op) :
    (sys w s).run (ops.map w.op) = (sys w (s.run ops).1, (s.run ops).2.map w.event) := by
  induction ops generalizing s with
  | nil => rfl
  | cons o ops ih =>
    simp only [List.map_cons, Sys.run, step]
    cases s.step o with
    | none => exact ih s
    | some r =>
      simp only [Option.map, ih]
      rfl

theorem init (n r : UInt16) (m : Nat) (c : Bool) : sys w (Sys.init n r m c) = Sys.init n r m c := by
  simp [sys, handler, state, Sys.init, State.new]

end Rw
end Mqrstt
