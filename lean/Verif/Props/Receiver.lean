import Verif.Props.Session
import Verif.Proof.Receiver
/-!
# Incoming messages (C29, C30, C31, C35, C55)
-/

namespace Mqrstt.Props
open Mqrstt Spec

/-- the client with its network and history satisfies the receiver invariant -/
theorem rinv (cfg : Config) (ops : List Op) : RInv (client cfg ops) (events cfg ops) :=
  RInv.start cfg.sendMax cfg.recvMax cfg.maxPacketSize cfg.cleanStart ops

/-- an incoming message -/
def message (qos : QoS) (id : Option UInt16) (dup : Bool) : Publish :=
  ⟨dup, qos, false, ⟨[116], by decide⟩, id, .empty, [1, 2, 3]⟩

/-! ## C29 -/

/-- **C29.** In every state, a QoS 0 message is given to the handler and not answered, a QoS 1 message is given to the
handler and answered by one PUBACK with its identifier, and nothing else changes. -/
theorem C29_qos0_qos1 (s : Sys) (hnet : s.alive = true) (p : Publish) :
    (p.qos = .atMostOnce → s.step (.receive (.publish p)) = some (s, .received (.publish p) none true)) ∧
    (∀ id, p.qos = .atLeastOnce → p.pkid = some id →
      s.step (.receive (.publish p)) =
        some (s, .received (.publish p) (some (.pubAck ⟨id, .success, .empty⟩)) true)) := by
  constructor
  · intro hq
    rw [Sys.step_receive hnet]
    simp only [Handler.incomingState, Handler.incomingPublish, hq]
  · intro id hq hid
    rw [Sys.step_receive hnet]
    simp only [Handler.incomingState, Handler.incomingPublish, hq, hid]

example : (client demo []).alive = true ∧ (message .atLeastOnce (some 7) false).qos = .atLeastOnce ∧
    (message .atLeastOnce (some 7) false).pkid = some 7 := ⟨rfl, rfl, rfl⟩

/-! ## C35 -/

/-- **C35.** Every PUBREL is answered by one PUBCOMP with its identifier, known or not, and is shown to the
handler; after it no message with the identifier is open, so the next one that is not marked as a duplicate is
given to the handler, whatever happens in between short of another message with this identifier. -/
theorem C35_pubrel_answered (cfg : Config) (ops : List Op) (hnet : (client cfg ops).alive = true) (a : Ack) :
    ∃ s', (client cfg ops).step (.receive (.pubRel a)) =
        some (s', .received (.pubRel a) (some (.pubComp ⟨a.id, .success, .empty⟩)) true) ∧
      ∀ ops' p s'' reply shown, p.qos = .exactlyOnce → p.pkid = some a.id → p.dup = false →
        (s'.run ops').1.step (.receive (.publish p)) = some (s'', .received (.publish p) reply shown) →
        (∀ e ∈ (s'.run ops').2, ∀ b, ¬ Arrival a.id b e) → shown = true := by
  have hex : ∃ s', (client cfg ops).step (.receive (.pubRel a)) =
      some (s', .received (.pubRel a) (some (.pubComp ⟨a.id, .success, .empty⟩)) true) := by
    rw [Sys.step_receive hnet]; exact ⟨_, rfl⟩
  obtain ⟨s', hstep⟩ := hex
  refine ⟨s', hstep, ?_⟩
  intro ops' p s'' reply shown hq hid hd hs hno
  have hr1 := ((rinv cfg ops).step hstep).run ops'
  obtain ⟨_, ha, _, hres, _⟩ := Sys.step_received hs
  have hnot : ¬ Open a.id ((events cfg ops ++ [.received (.pubRel a) (some (.pubComp ⟨a.id, .success, .empty⟩)) true]) ++
      (s'.run ops').2) := by
    intro ho
    rcases open_snoc.mp (open_of_append _ hno ho) with ⟨b, hb⟩ | hb
    · exact hb
    · exact hb.2.1 rfl
  have hin := mt (hr1.iff ha a.id).mp hnot
  simp only [Handler.incomingState, Handler.incomingPublish, hq, hid, State.addIncomingPub, Except.ok.injEq,
    Prod.mk.injEq] at hres
  rw [← hres.2, (IdSet.insert_flag hr1.sorted).mpr hin, hd]
  rfl

example : (client demo [.receive (.publish (message .exactlyOnce (some 7) false))]).alive = true ∧
    events demo [.receive (.publish (message .exactlyOnce (some 7) false)), .receive (.pubRel ⟨7, .success, .empty⟩),
      .receive (.publish (message .exactlyOnce (some 7) false))] =
    [.received (.publish (message .exactlyOnce (some 7) false)) (some (.pubRec ⟨7, .success, .empty⟩)) true,
     .received (.pubRel ⟨7, .success, .empty⟩) (some (.pubComp ⟨7, .success, .empty⟩)) true,
     .received (.publish (message .exactlyOnce (some 7) false)) (some (.pubRec ⟨7, .success, .empty⟩)) true] := ⟨rfl, rfl⟩

/-! ## C30 -/

/-- **C30.** If a QoS 2 message arrives with an identifier and later the handler gets a QoS 2 message with the same
identifier, a PUBREL for the identifier or a new connection lies between them. In particular the handler gets at
most one such message between two PUBRELs on a connection. -/
theorem C30_not_delivered_twice (cfg : Config) (ops : List Op) (id : UInt16) (h1 h2 h3 : List Event)
    (first second : Event) (b : Bool) (hist : events cfg ops = h1 ++ first :: h2 ++ second :: h3)
    (hfirst : Arrival id b first) (hsecond : Arrival id true second) :
    ∃ e ∈ h2, Released id e ∨ Reconnected e := by
  refine Classical.byContradiction fun hno => ?_
  obtain ⟨ops1, op, s', ops2, e1, e2, e3, _⟩ := Sys.run_split ops _ (h1 ++ first :: h2) hist
  have hr : RInv (client cfg ops1) (events cfg ops1) := rinv cfg ops1
  have hopen : Open id (events cfg ops1) :=
    ⟨h1, first, h2, b, e1, hfirst, fun x hx =>
      ⟨fun hx1 => hno ⟨x, hx, .inl hx1⟩, fun hx1 => hno ⟨x, hx, .inr hx1⟩⟩⟩
  cases second with
  | received p reply shown =>
    cases p with
    | publish p =>
      obtain ⟨hq, hid, rfl⟩ := hsecond
      obtain ⟨_, ha, _, hres, _⟩ := Sys.step_received e2
      have hin := (hr.iff ha id).mpr hopen
      simp only [Handler.incomingState, Handler.incomingPublish, hq, hid, State.addIncomingPub, Except.ok.injEq,
        Prod.mk.injEq] at hres
      have := hres.2
      simp only [Bool.and_eq_true] at this
      exact (IdSet.insert_flag hr.sorted).mp this.1 hin
    | _ => exact hsecond
  | _ => exact hsecond

/-- **C30.** A QoS 2 message marked as a duplicate is never given to the handler, and every QoS 2 message is
answered by PUBREC with its identifier. -/
theorem C30_duplicates_answered (cfg : Config) (ops : List Op) (p : Publish) (id : UInt16) (reply : Option Packet)
    (shown : Bool) (hq : p.qos = .exactlyOnce) (hid : p.pkid = some id)
    (h : Event.received (.publish p) reply shown ∈ events cfg ops) :
    reply = some (.pubRec ⟨id, .success, .empty⟩) ∧ (p.dup = true → shown = false) := by
  obtain ⟨h1, h3, hist⟩ := List.append_of_mem h
  obtain ⟨ops1, op, s', ops2, e1, e2, e3, _⟩ := Sys.run_split ops _ h1 hist
  obtain ⟨_, ha, _, hres, _⟩ := Sys.step_received e2
  simp only [Handler.incomingState, Handler.incomingPublish, hq, hid, State.addIncomingPub, Except.ok.injEq,
    Prod.mk.injEq] at hres
  refine ⟨hres.1.symm, fun hd => ?_⟩
  rw [← hres.2, hd]; simp

/-- **C30.** Receiving a QoS 2 message with an identifier always succeeds. -/
theorem C30_always_accepted (s : Sys) (hnet : s.alive = true) (p : Publish) (id : UInt16)
    (hq : p.qos = .exactlyOnce) (hid : p.pkid = some id) :
    ∃ s' reply shown, s.step (.receive (.publish p)) = some (s', .received (.publish p) reply shown) := by
  rw [Sys.step_receive hnet]
  simp only [Handler.incomingState, Handler.incomingPublish, hq, hid]
  exact ⟨_, _, _, rfl⟩

/-- first copy shown, second copy on the same connection not, marked copy after a reconnect not -/
example : events demo [.receive (.publish (message .exactlyOnce (some 7) false)),
      .receive (.publish (message .exactlyOnce (some 7) false)), .connAck (sessionConnAck true),
      .receive (.publish (message .exactlyOnce (some 7) true))] =
    [.received (.publish (message .exactlyOnce (some 7) false)) (some (.pubRec ⟨7, .success, .empty⟩)) true,
     .received (.publish (message .exactlyOnce (some 7) false)) (some (.pubRec ⟨7, .success, .empty⟩)) false,
     .connected (sessionConnAck true) [],
     .received (.publish (message .exactlyOnce (some 7) true)) (some (.pubRec ⟨7, .success, .empty⟩)) false] := rfl

/-! ## C31 -/

/-- **C31**, the part that holds: if a QoS 2 message is not given to the handler, it was marked as a duplicate, or an
earlier message with its identifier arrived on this connection with no PUBREL since. So as long as on every
connection the first message of an exchange is not marked as a duplicate, it is given to the handler. Missing:
messages whose first copy to reach the client is marked as a duplicate. -/
theorem C31_not_lost_partial (cfg : Config) (ops : List Op) (p : Publish) (id : UInt16) (reply : Option Packet)
    (h1 h3 : List Event) (hq : p.qos = .exactlyOnce) (hid : p.pkid = some id)
    (hist : events cfg ops = h1 ++ .received (.publish p) reply false :: h3) :
    p.dup = true ∨ Open id h1 := by
  obtain ⟨ops1, op, s', ops2, e1, e2, e3, _⟩ := Sys.run_split ops _ h1 hist
  have hr : RInv (client cfg ops1) (events cfg ops1) := rinv cfg ops1
  obtain ⟨_, ha, _, hres, _⟩ := Sys.step_received e2
  cases hd : p.dup with
  | true => exact Or.inl rfl
  | false =>
    right
    rw [← e1]
    refine (hr.iff ha id).mp (Classical.byContradiction fun hno => ?_)
    simp only [Handler.incomingState, Handler.incomingPublish, hq, hid, State.addIncomingPub, Except.ok.injEq,
      Prod.mk.injEq] at hres
    have hf : (IdSet.insert id (client cfg ops1).handler.state.incoming).2 = true := (IdSet.insert_flag hr.sorted).mpr hno
    have := hres.2
    rw [hd] at this
    change ((IdSet.insert id (client cfg ops1).handler.state.incoming).2 && !false) = false at this
    rw [hf] at this
    exact absurd this (by simp)

/-- **C31 is violated**: the first copy was lost with a connection, the server repeats it with DUP set as the protocol
demands; it is acknowledged and never given to the handler. -/
theorem C31_message_lost_violated :
    events demo [.connAck (sessionConnAck true), .receive (.publish (message .exactlyOnce (some 7) true)),
        .receive (.pubRel ⟨7, .success, .empty⟩)] =
      [.connected (sessionConnAck true) [],
       .received (.publish (message .exactlyOnce (some 7) true)) (some (.pubRec ⟨7, .success, .empty⟩)) false,
       .received (.pubRel ⟨7, .success, .empty⟩) (some (.pubComp ⟨7, .success, .empty⟩)) true] := rfl

example : ∃ h1 h3, events demo [.receive (.publish (message .exactlyOnce (some 7) false)),
      .receive (.publish (message .exactlyOnce (some 7) false))] =
    h1 ++ .received (.publish (message .exactlyOnce (some 7) false)) (some (.pubRec ⟨7, .success, .empty⟩)) false :: h3 :=
  ⟨[_], [], rfl⟩

/-! ## C55 -/

/-- **C55**, the part that holds: a copy that is marked as a duplicate is not delivered after any number of
reconnects. Missing: copies without the mark. -/
theorem C55_marked_copies_partial (cfg : Config) (ops : List Op) (p : Publish) (id : UInt16) (s' : Sys)
    (reply : Option Packet) (shown : Bool) (hq : p.qos = .exactlyOnce) (hid : p.pkid = some id) (hd : p.dup = true)
    (h : (client cfg ops).step (.receive (.publish p)) = some (s', .received (.publish p) reply shown)) :
    shown = false := by
  obtain ⟨_, ha, _, hres, _⟩ := Sys.step_received h
  simp only [Handler.incomingState, Handler.incomingPublish, hq, hid, State.addIncomingPub, Except.ok.injEq,
    Prod.mk.injEq] at hres
  rw [← hres.2, hd]; simp

/-- **C55 is violated**: the session is resumed without a PUBREL in between, and the same message is delivered
again. -/
theorem C55_forgotten_violated :
    events demo [.receive (.publish (message .exactlyOnce (some 7) false)), .connAck (sessionConnAck true),
        .receive (.publish (message .exactlyOnce (some 7) false))] =
      [.received (.publish (message .exactlyOnce (some 7) false)) (some (.pubRec ⟨7, .success, .empty⟩)) true,
       .connected (sessionConnAck true) [],
       .received (.publish (message .exactlyOnce (some 7) false)) (some (.pubRec ⟨7, .success, .empty⟩)) true] := rfl

example : ∃ s', (client demo [.receive (.publish (message .exactlyOnce (some 7) false)),
      .connAck (sessionConnAck true)]).step (.receive (.publish (message .exactlyOnce (some 7) true))) =
    some (s', .received (.publish (message .exactlyOnce (some 7) true)) (some (.pubRec ⟨7, .success, .empty⟩)) false) :=
  ⟨_, rfl⟩

end Mqrstt.Props
