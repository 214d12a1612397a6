import Verif.Props.Session
import Verif.Proof.Sizes
import Verif.Proof.Frame
import Verif.Proof.Witness
import Verif.Proof.Receiver
/-!
# Client calls and the queue to the network (C19, C39, C47, C49, C50)
-/

namespace Mqrstt.Props
open Mqrstt Mqrstt.Spec _root_.Spec

/-! ## C49 -/

/-- the packet a request asks for, given the identifier it received -/
inductive Asks : Request → Option UInt16 → Packet → Prop
  | qos0 (topic : Str) (retain : Bool) (payload : Bytes) (props : Props) (p : Publish)
      (h1 : p.dup = false) (h2 : p.qos = .atMostOnce) (h3 : p.retain = retain) (h4 : p.topic = topic)
      (h5 : p.pkid = none) (h6 : p.props = props) (h7 : p.payload = payload) :
      Asks (.publish topic .atMostOnce retain payload props) none (.publish p)
  | qos (topic : Str) (qos : QoS) (hq : qos ≠ .atMostOnce) (retain : Bool) (payload : Bytes) (props : Props) (p : Publish)
      (id : UInt16) (h1 : p.dup = false) (h2 : p.qos = qos) (h3 : p.retain = retain) (h4 : p.topic = topic)
      (h5 : p.pkid = some id) (h6 : p.props = props) (h7 : p.payload = payload) :
      Asks (.publish topic qos retain payload props) (some id) (.publish p)
  | subscribe (topics : List (Str × SubOptions)) (props : Props) (p : Subscribe) (id : UInt16)
      (h1 : p.id = id) (h2 : p.topics = topics) (h3 : p.props = props) :
      Asks (.subscribe topics props) (some id) (.subscribe p)
  | unsubscribe (topics : List Str) (props : Props) (p : Unsubscribe) (id : UInt16)
      (h1 : p.id = id) (h2 : p.topics = topics) (h3 : p.props = props) :
      Asks (.unsubscribe topics props) (some id) (.unsubscribe p)
  | disconnect (reason : Reason) (props : Props) (p : ReasonProps) (h1 : p.reason = reason) (h2 : p.props = props) :
      Asks (.disconnect reason props) none (.disconnect p)

theorem callWith_cases {s s' : Sys} {q : Request} {id : Option UInt16} {e : Event}
    (h : s.callWith q id = some (s', e)) :
    ∃ p, q.packet id = some p ∧
      ((e = .called q id p ∧ s' = { s with pending := s.pending ++ [p] } ∧ s.alive = true ∧
          p.validate s.maxPacketSize = .ok ()) ∨
       (s' = s ∧ ∃ x, e = .rejected q id x ∧
          ((∃ v, x = .validation v ∧ p.validate s.maxPacketSize = .error v) ∨
           (x = .noNetworkChannel ∧ s.alive = false)))) := by
  unfold Sys.callWith at h
  cases hp : q.packet id with
  | none => simp [hp] at h
  | some p =>
    refine ⟨p, rfl, ?_⟩
    simp only [hp] at h
    cases hv : p.validate s.maxPacketSize with
    | error v =>
      simp only [hv, Option.some.injEq, Prod.mk.injEq] at h
      exact Or.inr ⟨h.1.symm, _, h.2.symm, .inl ⟨v, rfl, rfl⟩⟩
    | ok u =>
      simp only [hv] at h
      cases ha : s.alive with
      | true =>
        simp only [ha, if_true, Option.some.injEq, Prod.mk.injEq] at h
        refine Or.inl ⟨h.2.symm, ?_, rfl, rfl⟩
        rw [← h.1, ← ha]
      | false =>
        simp only [ha, Bool.false_eq_true, if_false, Option.some.injEq, Prod.mk.injEq] at h
        exact Or.inr ⟨h.1.symm, _, h.2.symm, .inr ⟨rfl, rfl⟩⟩

/-- what a call does to the pool -/
inductive TookId (s t : Sys) (q : Request) : Option UInt16 → Prop
  | none (h : q.takesId = false) (ht : t = s) : TookId s t q none
  | some (id : UInt16) (pool : Pool) (h : q.takesId = true) (hp : s.pool.take = some (id, pool)) (ht : t = s.withPool pool) :
      TookId s t q (some id)

theorem call_cases {s s' : Sys} {q : Request} {e : Event} (h : s.step (.call q) = some (s', e)) :
    (∃ t id, TookId s t q id ∧ t.callWith q id = some (s', e)) ∨
    (s' = s ∧ e = .rejected q none .noNetworkChannel ∧ q.takesId = true ∧ s.alive = false) := by
  simp only [Sys.step, Sys.call] at h
  split at h
  · simp at h
  · split at h
    · rename_i ht
      split at h
      · rename_i id pool hp
        exact Or.inl ⟨_, _, .some id pool ht hp rfl, h⟩
      · split at h
        · simp at h
        · rename_i ha
          simp only [Option.some.injEq, Prod.mk.injEq] at h
          exact Or.inr ⟨h.1.symm, h.2.symm, ht, by simpa using ha⟩
    · rename_i ht
      exact Or.inl ⟨s, none, .none (by simpa using ht) rfl, h⟩

theorem Pool.take_some {p p' : Pool} {id : UInt16} (h : p.take = some (id, p')) : p.queue = id :: p'.queue := by
  unfold Pool.take at h
  split at h
  · simp at h
  · rename_i x xs hq
    simp only [Option.some.injEq, Prod.mk.injEq] at h
    obtain ⟨rfl, rfl⟩ := h
    exact hq

/-- **C49.** In every state: a call that succeeds asks for exactly one packet, with the given contents, DUP clear, and no
identifier exactly for QoS 0 publishes and disconnects; the identifier is the first one of the pool and nothing
else is taken from the pool. -/
theorem C49_call_content (s s' : Sys) (q : Request) (id : Option UInt16) (p : Packet)
    (h : s.step (.call q) = some (s', .called q id p)) :
    Asks q id p ∧ s'.pending = s.pending ++ [p] ∧ s'.queue = s.queue ∧
    s.pool.queue = id.toList ++ s'.pool.queue := by
  rcases call_cases h with ⟨t, id', ht, hw⟩ | ⟨_, he, _⟩
  · obtain ⟨p', hp, hc | ⟨_, x, hx, _⟩⟩ := callWith_cases hw
    · obtain ⟨he, rfl, hal, _⟩ := hc
      simp only [Event.called.injEq, true_and] at he
      obtain ⟨rfl, rfl⟩ := he
      cases ht with
      | none htk ht =>
        subst ht
        refine ⟨?_, rfl, rfl, rfl⟩
        cases q with
        | publish topic qos retain payload props =>
          cases qos <;> simp [Request.takesId] at htk
          simp only [Request.packet, Option.some.injEq] at hp
          subst hp
          exact .qos0 _ _ _ _ _ rfl rfl rfl rfl rfl rfl rfl
        | subscribe topics props => simp [Request.takesId] at htk
        | unsubscribe topics props => simp [Request.takesId] at htk
        | disconnect r props =>
          simp only [Request.packet, Option.some.injEq] at hp
          subst hp
          exact .disconnect _ _ _ rfl rfl
      | some i pool htk hpool ht =>
        subst ht
        refine ⟨?_, rfl, rfl, Pool.take_some hpool⟩
        cases q with
        | publish topic qos retain payload props =>
          simp only [Request.packet, Option.some.injEq] at hp
          subst hp
          refine .qos _ _ ?_ _ _ _ _ _ rfl rfl rfl rfl rfl rfl rfl
          rintro rfl
          simp [Request.takesId] at htk
        | subscribe topics props =>
          simp only [Request.packet, Option.map_some, Option.some.injEq] at hp
          subst hp
          exact .subscribe _ _ _ _ rfl rfl rfl
        | unsubscribe topics props =>
          simp only [Request.packet, Option.map_some, Option.some.injEq] at hp
          subst hp
          exact .unsubscribe _ _ _ _ rfl rfl rfl
        | disconnect r props => simp [Request.takesId] at htk
    · simp at hx
  · simp at he

/-- **C49.** A call that returns `Ok` has put exactly its packet at the end of the queue, once. -/
theorem C49_submitted_once (s s' : Sys) (k : Nat) (p : Packet) (h : s.step (.submit k) = some (s', .submitted p)) :
    s.pending[k]? = some p ∧ s'.pending = s.pending.eraseIdx k ∧ s'.queue = s.queue ++ [p] ∧ s'.pool = s.pool := by
  simp only [Sys.step] at h
  split at h
  · simp at h
  · rename_i x hx
    split at h
    · split at h
      · simp only [Option.some.injEq, Prod.mk.injEq, Event.submitted.injEq] at h
        obtain ⟨rfl, rfl⟩ := h
        exact ⟨hx, rfl, rfl, rfl⟩
      · simp at h
    · simp at h

/-- **C49.** Nothing else puts packets into the queue, and nothing else waits for the queue. -/
theorem C49_nothing_else (s s' : Sys) (op : Op) (e : Event) (h : s.step op = some (s', e)) :
    ((∀ k, op ≠ .submit k) → s'.queue = s.queue ∨ ∃ p, s.queue = p :: s'.queue) ∧
    ((∀ q, op ≠ .call q) → s'.pending.Sublist s.pending) := by
  cases op with
  | call q =>
    refine ⟨fun _ => .inl ?_, fun hq => absurd rfl (hq q)⟩
    rcases call_cases h with ⟨t, id', ht, hw⟩ | ⟨rfl, _⟩
    · have htq : t.queue = s.queue := by cases ht <;> (rename_i ht; subst ht; rfl)
      obtain ⟨p', hp, hc | ⟨rfl, _⟩⟩ := callWith_cases hw
      · obtain ⟨_, rfl, _⟩ := hc; exact htq
      · exact htq
    · rfl
  | submit k =>
    refine ⟨fun hk => absurd rfl (hk k), fun _ => ?_⟩
    simp only [Sys.step] at h
    repeat' split at h
    all_goals simp only [Option.some.injEq, Prod.mk.injEq, reduceCtorEq] at h
    all_goals
      obtain ⟨rfl, rfl⟩ := h
      exact List.eraseIdx_sublist ..
  | abandon k =>
    simp only [Sys.step] at h
    split at h
    · simp at h
    · simp only [Option.some.injEq, Prod.mk.injEq] at h
      obtain ⟨rfl, rfl⟩ := h
      exact ⟨fun _ => .inl rfl, fun _ => List.eraseIdx_sublist ..⟩
  | dropClients =>
    simp only [Sys.step, Option.some.injEq, Prod.mk.injEq] at h
    obtain ⟨rfl, rfl⟩ := h
    exact ⟨fun _ => .inl rfl, fun _ => List.nil_sublist _⟩
  | dropNetwork =>
    simp only [Sys.step] at h
    split at h
    · simp only [Option.some.injEq, Prod.mk.injEq] at h
      obtain ⟨rfl, rfl⟩ := h
      exact ⟨fun _ => .inl rfl, fun _ => List.Sublist.refl _⟩
    · simp at h
  | write ok =>
    simp only [Sys.step] at h
    split at h
    · split at h
      · simp at h
      · rename_i p rest hq
        repeat' split at h
        all_goals simp only [Option.some.injEq, Prod.mk.injEq] at h
        all_goals
          obtain ⟨rfl, rfl⟩ := h
          exact ⟨fun _ => .inr ⟨p, hq⟩, fun _ => List.Sublist.refl _⟩
    · simp at h
  | receive p =>
    simp only [Sys.step] at h
    repeat' split at h
    all_goals simp only [Option.some.injEq, Prod.mk.injEq, reduceCtorEq] at h
    all_goals
      obtain ⟨rfl, rfl⟩ := h
      exact ⟨fun _ => .inl rfl, fun _ => List.Sublist.refl _⟩
  | connAck c =>
    simp only [Sys.step] at h
    repeat' split at h
    all_goals simp only [Option.some.injEq, Prod.mk.injEq, reduceCtorEq] at h
    all_goals
      obtain ⟨rfl, rfl⟩ := h
      exact ⟨fun _ => .inl rfl, fun _ => List.Sublist.refl _⟩

example : (∃ s', (client demo []).step (.call (demoPublish .exactlyOnce)) =
      some (s', .called (demoPublish .exactlyOnce) (some 1)
        (.publish ⟨false, .exactlyOnce, false, ⟨[116], by decide⟩, some 1, .empty, [1, 2, 3]⟩))) ∧
    (∃ s', (client demo [.call (demoPublish .exactlyOnce)]).step (.submit 0) =
      some (s', .submitted (.publish ⟨false, .exactlyOnce, false, ⟨[116], by decide⟩, some 1, .empty, [1, 2, 3]⟩))) :=
  ⟨⟨_, rfl⟩, ⟨_, rfl⟩⟩

/-! ## C39 -/

/-- the packets that entered the queue, in order -/
def submittedPackets : List Event → List Packet
  | [] => []
  | .submitted p :: h => p :: submittedPackets h
  | _ :: h => submittedPackets h

/-- the packets from the queue that were written or whose write failed, in order -/
def takenPackets : List Event → List Packet
  | [] => []
  | .written p :: h => p :: takenPackets h
  | .writtenError p _ :: h => p :: takenPackets h
  | .writeFailed p :: h => p :: takenPackets h
  | _ :: h => takenPackets h

/-- the packets from the queue that were written, in order -/
def writtenPackets : List Event → List Packet
  | [] => []
  | .written p :: h => p :: writtenPackets h
  | .writtenError p _ :: h => p :: writtenPackets h
  | _ :: h => writtenPackets h

theorem submitted_append (a b : List Event) : submittedPackets (a ++ b) = submittedPackets a ++ submittedPackets b := by
  induction a with
  | nil => rfl
  | cons e a ih => cases e <;> simp [submittedPackets, ih]

theorem taken_append (a b : List Event) : takenPackets (a ++ b) = takenPackets a ++ takenPackets b := by
  induction a with
  | nil => rfl
  | cons e a ih => cases e <;> simp [takenPackets, ih]

theorem written_sublist (h : List Event) : (writtenPackets h).Sublist (takenPackets h) := by
  induction h with
  | nil => exact .slnil
  | cons e a ih =>
    cases e <;> simp only [writtenPackets, takenPackets]
    all_goals first | exact ih | exact ih.cons_cons _ | exact ih.cons _

/-- what is in the queue has been submitted and not been taken -/
def Fifo (s : Sys) (h : List Event) : Prop :=
  ∃ rest, submittedPackets h = takenPackets h ++ rest ∧ (s.alive = true → rest = s.queue)

theorem Fifo.same {s s' : Sys} {h : List Event} {e : Event} (hf : Fifo s h) (h1 : submittedPackets [e] = [])
    (h2 : takenPackets [e] = []) (hal : s'.alive = true → s.alive = true ∧ s'.queue = s.queue) : Fifo s' (h ++ [e]) := by
  obtain ⟨rest, hr, hq⟩ := hf
  refine ⟨rest, by rw [submitted_append, taken_append, h1, h2]; simpa using hr, fun ha => ?_⟩
  rw [(hal ha).2]; exact hq (hal ha).1

theorem Fifo.step {s s' : Sys} {h : List Event} {op : Op} {e : Event} (hf : Fifo s h)
    (hs : s.step op = some (s', e)) : Fifo s' (h ++ [e]) := by
  cases op with
  | call q =>
    rcases call_cases hs with ⟨t, id', ht, hw⟩ | ⟨rfl, rfl, _⟩
    · have htq : t.queue = s.queue ∧ t.alive = s.alive := by cases ht <;> (rename_i ht; subst ht; exact ⟨rfl, rfl⟩)
      obtain ⟨p', hp, hc | ⟨rfl, x, rfl, _⟩⟩ := callWith_cases hw
      · obtain ⟨rfl, rfl, _⟩ := hc
        exact hf.same rfl rfl (fun ha => ⟨htq.2 ▸ ha, htq.1⟩)
      · exact hf.same rfl rfl (fun ha => ⟨htq.2 ▸ ha, htq.1⟩)
    · exact hf.same rfl rfl (fun ha => ⟨ha, rfl⟩)
  | submit k =>
    simp only [Sys.step] at hs
    split at hs
    · simp at hs
    · rename_i p hp
      split at hs
      · rename_i ha
        split at hs
        · simp only [Option.some.injEq, Prod.mk.injEq] at hs
          obtain ⟨rfl, rfl⟩ := hs
          obtain ⟨rest, hr, hq⟩ := hf
          refine ⟨rest ++ [p], ?_, fun _ => by rw [hq ha]⟩
          rw [submitted_append, taken_append]
          simp [submittedPackets, takenPackets, hr]
        · simp at hs
      · rename_i ha
        simp only [Option.some.injEq, Prod.mk.injEq] at hs
        obtain ⟨rfl, rfl⟩ := hs
        exact hf.same rfl rfl (fun hx => absurd hx ha)
  | abandon k =>
    simp only [Sys.step] at hs
    split at hs
    · simp at hs
    · simp only [Option.some.injEq, Prod.mk.injEq] at hs
      obtain ⟨rfl, rfl⟩ := hs
      exact hf.same rfl rfl (fun ha => ⟨ha, rfl⟩)
  | dropClients =>
    simp only [Sys.step, Option.some.injEq, Prod.mk.injEq] at hs
    obtain ⟨rfl, rfl⟩ := hs
    exact hf.same rfl rfl (fun ha => ⟨ha, rfl⟩)
  | dropNetwork =>
    simp only [Sys.step] at hs
    split at hs
    · simp only [Option.some.injEq, Prod.mk.injEq] at hs
      obtain ⟨rfl, rfl⟩ := hs
      exact hf.same rfl rfl (by simp [Sys.die])
    · simp at hs
  | write ok =>
    simp only [Sys.step] at hs
    split at hs
    · rename_i ha
      split at hs
      · simp at hs
      · rename_i p rest hq
        obtain ⟨rest', hr, hq'⟩ := hf
        obtain rfl : rest' = p :: rest := (hq' ha).trans hq
        have key : ∀ (e : Event) (s' : Sys), submittedPackets [e] = [] → takenPackets [e] = [p] → s'.queue = rest →
            Fifo s' (h ++ [e]) := by
          intro e s' h1 h2 h3
          refine ⟨rest, ?_, fun _ => h3.symm⟩
          rw [submitted_append, taken_append, h1, h2]
          simp [hr]
        repeat' split at hs
        all_goals simp only [Option.some.injEq, Prod.mk.injEq] at hs
        all_goals obtain ⟨rfl, rfl⟩ := hs
        · exact key _ _ rfl rfl rfl
        · exact key _ _ rfl rfl rfl
        · refine ⟨p :: rest, ?_, by simp [Sys.die]⟩
          rw [submitted_append, taken_append]
          simp [submittedPackets, takenPackets, hr]
        · exact key _ _ rfl rfl rfl
    · simp at hs
  | receive p =>
    simp only [Sys.step] at hs
    repeat' split at hs
    all_goals simp only [Option.some.injEq, Prod.mk.injEq, reduceCtorEq] at hs
    all_goals
      obtain ⟨rfl, rfl⟩ := hs
      first
      | exact hf.same rfl rfl (fun ha => ⟨ha, rfl⟩)
      | exact hf.same rfl rfl (by simp [Sys.die])
  | connAck c =>
    simp only [Sys.step] at hs
    repeat' split at hs
    all_goals simp only [Option.some.injEq, Prod.mk.injEq, reduceCtorEq] at hs
    all_goals
      obtain ⟨rfl, rfl⟩ := hs
      first
      | exact hf.same rfl rfl (fun ha => ⟨ha, rfl⟩)
      | exact hf.same rfl rfl (by simp [Sys.die])

theorem Fifo.run : ∀ (ops : List Op) {s : Sys} {h : List Event}, Fifo s h → Fifo (s.run ops).1 (h ++ (s.run ops).2)
  | [], s, h, hf => by simpa [Sys.run] using hf
  | op :: ops, s, h, hf => by
    unfold Sys.run
    cases hs : s.step op with
    | none => exact Fifo.run ops hf
    | some x =>
      obtain ⟨s', e⟩ := x
      simpa using Fifo.run ops (hf.step hs)

/-- **C39.** After every history the packets taken from the queue (written, or lost in a failed write) are an initial part
of those submitted, in the same order; the rest is in the queue. The packets actually written are those in
the same order without the failed ones; nothing is written twice or altered. -/
theorem C39_fifo (cfg : Config) (ops : List Op) :
    (∃ rest, submittedPackets (events cfg ops) = takenPackets (events cfg ops) ++ rest ∧
      ((client cfg ops).alive = true → rest = (client cfg ops).queue)) ∧
    (writtenPackets (events cfg ops)).Sublist (takenPackets (events cfg ops)) := by
  refine ⟨?_, written_sublist _⟩
  have := Fifo.run ops (s := Sys.init cfg.sendMax cfg.recvMax cfg.maxPacketSize cfg.cleanStart) (h := [])
    ⟨[], rfl, fun _ => rfl⟩
  exact this

/-- **C39.** The next packet to be taken is the one submitted first among those in the queue; if writing works it is
written as it was submitted. -/
theorem C39_next (s : Sys) (hnet : s.alive = true) (p : Packet) (rest : List Packet) (h : s.queue = p :: rest) :
    (∃ s', s.step (.write false) = some (s', .writeFailed p) ∧ s'.queue = rest) ∧
    (∃ s' e, s.step (.write true) = some (s', e) ∧ s'.queue = rest ∧
      (e = .written p ∨ (∃ x, e = .writtenError p x) ∨ e = .panicked)) := by
  simp only [Sys.step, hnet, if_true, h]
  refine ⟨⟨_, rfl, rfl⟩, ?_⟩
  cases hg : s.handler.outgoing p with
  | mk hd r =>
    rcases r with (x | _) | _
    · exact ⟨_, _, rfl, rfl, .inr (.inl ⟨_, rfl⟩)⟩
    · exact ⟨_, _, rfl, rfl, .inr (.inr rfl)⟩
    · exact ⟨_, _, rfl, rfl, .inl rfl⟩

example :
    let h := events demo [.call (demoPublish .atMostOnce), .call (demoPublish .atLeastOnce), .submit 1, .submit 0, .write true]
    (submittedPackets h).length = 2 ∧ (takenPackets h).length = 1 ∧ (submittedPackets h)[0]? = (takenPackets h)[0]? := by
  exact ⟨rfl, rfl, rfl⟩

/-! ## C47 -/

/-- **C47**, the part that holds: a failed write changes neither the stored session nor the pool nor the rest of the
queue, so everything that was outstanding stays so (C25). Missing: the publish itself. -/
theorem C47_failed_write_partial (s s' : Sys) (ok : Bool) (p : Packet) (h : s.step (.write ok) = some (s', .writeFailed p)) :
    s'.handler = s.handler ∧ s.queue = p :: s'.queue ∧ s'.pending = s.pending ∧ s'.alive = s.alive := by
  simp only [Sys.step] at h
  split at h
  · split at h
    · simp at h
    · rename_i q rest hq
      repeat' split at h
      all_goals simp only [Option.some.injEq, Prod.mk.injEq, reduceCtorEq, and_false, Event.writeFailed.injEq] at h
      obtain ⟨rfl, rfl⟩ := h
      exact ⟨rfl, hq, rfl, rfl⟩
  · simp at h

/-- **C47 is violated**: after a QoS 1 publish was submitted and its write failed, the client resumes its session and
sends nothing again; its identifier is not available either. -/
theorem C47_publish_lost_violated :
    ∃ p s', events demo [.call (demoPublish .atLeastOnce), .submit 0, .write false] =
        [.called (demoPublish .atLeastOnce) (some 1) p, .submitted p, .writeFailed p] ∧
      (client demo [.call (demoPublish .atLeastOnce), .submit 0, .write false]).step (.connAck (sessionConnAck true)) =
        some (s', .connected (sessionConnAck true) []) ∧ s'.queue = [] ∧ 1 ∉ s'.pool.queue :=
  ⟨_, _, rfl, rfl, rfl, by decide⟩

example : ∃ s' p, (client demo (sendOps (demoPublish .atLeastOnce) ++ [.call (demoPublish .exactlyOnce), .submit 0])).step
    (.write false) = some (s', .writeFailed p) := ⟨_, _, rfl⟩

/-! ## C50 -/

/-- **C50**, the part that holds: a rejected call puts nothing into the queue and sends nothing; if it needs no
identifier, or got none, nothing changes at all. Missing: the identifier it received is used up. -/
theorem C50_rejected_call_partial (s s' : Sys) (q : Request) (id : Option UInt16) (e : ClientErr)
    (h : s.step (.call q) = some (s', .rejected q id e)) :
    s'.pending = s.pending ∧ s'.queue = s.queue ∧ s.pool.queue = id.toList ++ s'.pool.queue ∧
    (id = none → s' = s) := by
  rcases call_cases h with ⟨t, id', ht, hw⟩ | ⟨rfl, he, _⟩
  · obtain ⟨p', hp, hc | ⟨rfl, x, hx, _⟩⟩ := callWith_cases hw
    · simp at hc
    · simp only [Event.rejected.injEq, true_and] at hx
      obtain ⟨rfl, rfl⟩ := hx
      cases ht with
      | none _ ht => subst ht; exact ⟨rfl, rfl, rfl, fun _ => rfl⟩
      | some i pool _ hpool ht => subst ht; exact ⟨rfl, rfl, Pool.take_some hpool, by simp⟩
  · simp only [Event.rejected.injEq, true_and] at he
    obtain ⟨rfl, rfl⟩ := he
    exact ⟨rfl, rfl, rfl, fun _ => rfl⟩

/-- **C50.** A waiting call that returns an error because the network is gone leaves nothing behind either. -/
theorem C50_refused_call_partial (s s' : Sys) (k : Nat) (p : Packet) (h : s.step (.submit k) = some (s', .refused p)) :
    s'.queue = s.queue ∧ s'.pending = s.pending.eraseIdx k ∧ s'.handler = s.handler := by
  simp only [Sys.step] at h
  repeat' split at h
  all_goals simp only [Option.some.injEq, Prod.mk.injEq, reduceCtorEq, and_false] at h
  obtain ⟨rfl, _⟩ := h
  exact ⟨rfl, rfl, rfl⟩

/-- **C50 is violated**: a publish that is rejected for its size has used up the only identifier for good; with a fresh
client the same publish is the first call. (C23 shows that no later call ever gets an identifier.) -/
theorem C50_identifier_used_up_violated :
    ∃ s' e, (client ⟨1, 1, 3, false⟩ []).step (.call (demoPublish .atLeastOnce)) =
        some (s', .rejected (demoPublish .atLeastOnce) (some 1) e) ∧
      (client ⟨1, 1, 3, false⟩ []).pool.queue = [1] ∧ s'.pool.queue = [] :=
  ⟨_, _, rfl, rfl, rfl⟩

example : ∃ s' e, (client ⟨1, 1, 3, false⟩ []).step (.call (demoPublish .atMostOnce)) =
    some (s', .rejected (demoPublish .atMostOnce) none e) := ⟨_, _, rfl⟩

/-- two calls wait when the network is dropped -/
example : ∃ s' p, (client demo [.call (demoPublish .exactlyOnce), .call (demoPublish .atMostOnce), .dropNetwork]).step (.submit 1) =
    some (s', .refused p) := ⟨_, _, rfl⟩

/-! ## C19 -/

theorem encoded_size {p : Packet} (ha : ¬ EmptyAuthData p) {bs : Bytes} (h : p.write = .ok bs) :
    p.bodyWireLen + 2 ≤ bs.length ∧ bs.length ≤ p.bodyWireLen + 5 := by
  obtain ⟨a, b, h1, h2, rfl⟩ := Wr.append_eq_ok.1 h
  obtain ⟨c, d, h3, h4, rfl⟩ := Wr.append_eq_ok.1 h1
  cases h3
  rw [Packet.lenWrite_eq] at h4
  obtain ⟨⟨i, l, rfl, hi, _⟩, _⟩ := VarInt.write_isVbi h4
  have := Packet.bodyWrite_length ha h2
  simp only [List.length_append, List.length_cons, List.length_nil] at *
  omega

theorem encoded_size_async {p : Packet} (ha : ¬ HasAssignedId p) {bs : Bytes} {n : Nat} (h : p.asyncWrite = .ok (bs, n)) :
    p.bodyWireLen + 2 ≤ bs.length ∧ bs.length ≤ p.bodyWireLen + 5 := by
  obtain ⟨a, na, b, nb, h1, h2, rfl, -⟩ := AWr.append_eq_ok.1 h
  obtain ⟨c, nc, d, nd, h3, h4, rfl, -⟩ := AWr.append_eq_ok.1 h1
  cases h3
  rw [Packet.lenAsyncWrite_eq] at h4
  have h4 := ((VarInt.asyncWrite_ok_iff _ _ _).1 h4).1
  obtain ⟨⟨i, l, rfl, hi, _⟩, _⟩ := VarInt.write_isVbi h4
  have := (Packet.bodyAsyncWrite_length ha h2).1
  simp only [List.length_append, List.length_cons, List.length_nil] at *
  omega

/-- `n` bytes is the size of the packet as one of the two clients sends it -/
def SentSize (p : Packet) (n : Nat) : Prop :=
  (∃ bs, p.write = .ok bs ∧ n = bs.length) ∨ (∃ bs k, p.asyncWrite = .ok (bs, k) ∧ n = bs.length)

theorem sent_size {p : Packet} (wf : WF p) (hp : p.type = .publish ∨ p.type = .subscribe ∨ p.type = .unsubscribe)
    {n : Nat} (h : SentSize p n) : p.bodyWireLen + 2 ≤ n ∧ n ≤ p.bodyWireLen + 5 := by
  have hlisted : ∃ P es, propSets p = [P] ∧ PropsWF es P ∧ .single .authenticationData ∉ es ∧
      .single .assignedClientIdentifier ∉ es := by
    cases p with
    | publish p => exact ⟨_, _, rfl, wf.2.2, by decide, by decide⟩
    | subscribe p => exact ⟨_, _, rfl, wf.1, by decide, by decide⟩
    | unsubscribe p => exact ⟨_, _, rfl, wf.1, by decide, by decide⟩
    | _ => simp [Packet.type] at hp
  obtain ⟨P, es, hps, hwf, h1, h2⟩ := hlisted
  rcases h with ⟨bs, hb, rfl⟩ | ⟨bs, k, hb, rfl⟩
  · refine encoded_size ?_ hb
    rintro ⟨Q, hQ, hq⟩
    rw [hps, List.mem_singleton] at hQ
    subst hQ
    exact h1 (hwf.listed _ (by rw [hq]; simp))
  · refine encoded_size_async ?_ hb
    rintro ⟨Q, hQ, hq⟩
    rw [hps, List.mem_singleton] at hQ
    subst hQ
    exact h2 (hwf.listed _ hq)

/-- the configured maximum is the one in force after every history -/
theorem maxPacketSize_step {s s' : Sys} {op : Op} {e : Event} (h : s.step op = some (s', e)) :
    s'.maxPacketSize = s.maxPacketSize := by
  cases op with
  | call q =>
    rcases call_cases h with ⟨t, id', ht, hw⟩ | ⟨rfl, _⟩
    · have htm : t.maxPacketSize = s.maxPacketSize := by cases ht <;> (rename_i ht; subst ht; rfl)
      obtain ⟨p', hp, hc | ⟨rfl, _⟩⟩ := callWith_cases hw
      · obtain ⟨_, rfl, _⟩ := hc; exact htm
      · exact htm
    · rfl
  | _ =>
    simp only [Sys.step] at h
    repeat' split at h
    all_goals simp only [Option.some.injEq, Prod.mk.injEq, reduceCtorEq] at h
    all_goals
      obtain ⟨rfl, rfl⟩ := h
      rfl

theorem maxPacketSize_run : ∀ (ops : List Op) (s : Sys), (s.run ops).1.maxPacketSize = s.maxPacketSize
  | [], s => rfl
  | op :: ops, s => by
    unfold Sys.run
    cases hs : s.step op with
    | none => exact maxPacketSize_run ops s
    | some x =>
      obtain ⟨s', e⟩ := x
      exact (maxPacketSize_run ops s').trans (maxPacketSize_step hs)

/-- **C19**, the part that holds: for a publish, subscribe or unsubscribe (with any arguments the types allow, topics and
properties within MQTT's own limits), if the call succeeds the packet as sent exceeds the configured maximum by
at most five bytes; a packet that fits the maximum is not rejected for its size. Missing: the bytes of the
fixed header are not counted. -/
theorem C19_max_packet_size_partial (cfg : Config) (ops : List Op) (s' : Sys) (q : Request) (id : Option UInt16) (p : Packet) (hp : q.packet id = some p)
    (hkind : p.type = .publish ∨ p.type = .subscribe ∨ p.type = .unsubscribe) (wf : WF p) (n : Nat) (hn : SentSize p n) :
    ((client cfg ops).step (.call q) = some (s', .called q id p) → n ≤ cfg.maxPacketSize + 5) ∧
    (∀ k, (client cfg ops).step (.call q) = some (s', .rejected q id (.validation (.maxPacketSize k))) →
      n > cfg.maxPacketSize) := by
  have hmax : (client cfg ops).maxPacketSize = cfg.maxPacketSize := maxPacketSize_run ops _
  rw [← hmax]
  generalize client cfg ops = s
  have hsz := sent_size wf hkind hn
  have hval : (p.validate s.maxPacketSize = .ok () → p.bodyWireLen ≤ s.maxPacketSize) ∧
      (∀ k, p.validate s.maxPacketSize = .error (.maxPacketSize k) → p.bodyWireLen > s.maxPacketSize) := by
    cases p with
    | publish p =>
      simp only [Packet.validate, Publish.validate, Packet.bodyWireLen]
      split
      · rename_i h; exact ⟨by simp, fun _ _ => h⟩
      · rename_i h
        refine ⟨fun _ => by omega, fun k hk => ?_⟩
        split at hk <;> simp at hk
    | subscribe p =>
      simp only [Packet.validate, Subscribe.validate, Packet.bodyWireLen]
      split
      · rename_i h; exact ⟨by simp, fun _ _ => h⟩
      · rename_i h
        refine ⟨fun _ => by omega, fun k hk => ?_⟩
        split at hk <;> simp at hk
    | unsubscribe p =>
      simp only [Packet.validate, Unsubscribe.validate, Packet.bodyWireLen]
      split
      · rename_i h; exact ⟨by simp, fun _ _ => h⟩
      · rename_i h
        refine ⟨fun _ => by omega, fun k hk => ?_⟩
        split at hk <;> simp at hk
    | _ => simp [Packet.type] at hkind
  constructor
  · intro h
    rcases call_cases h with ⟨t, id', ht, hw⟩ | ⟨_, he, _⟩
    · have htm : t.maxPacketSize = s.maxPacketSize := by cases ht <;> (rename_i ht; subst ht; rfl)
      obtain ⟨p', hp', hc | ⟨_, x, hx, _⟩⟩ := callWith_cases hw
      · obtain ⟨he, _, _, hv⟩ := hc
        simp only [Event.called.injEq, true_and] at he
        obtain ⟨rfl, rfl⟩ := he
        rw [htm] at hv
        have := hval.1 hv
        omega
      · simp at hx
    · simp at he
  · intro k h
    rcases call_cases h with ⟨t, id', ht, hw⟩ | ⟨_, he, _⟩
    · have htm : t.maxPacketSize = s.maxPacketSize := by cases ht <;> (rename_i ht; subst ht; rfl)
      obtain ⟨p', hp', hc | ⟨_, x, hx, hv⟩⟩ := callWith_cases hw
      · simp at hc
      · simp only [Event.rejected.injEq, true_and] at hx
        obtain ⟨rfl, rfl⟩ := hx
        rcases hv with ⟨v, hv1, hv2⟩ | ⟨hv1, _⟩
        · simp only [ClientErr.validation.injEq] at hv1
          subst hv1
          rw [hp] at hp'
          obtain rfl := Option.some.inj hp'
          rw [htm] at hv2
          have := hval.2 k hv2
          omega
        · simp at hv1
    · simp at he

/-- **C19 is violated**: with a maximum of 7 bytes a publish of 9 bytes is accepted. -/
theorem C19_max_packet_size_violated :
    ∃ s' p, (client ⟨1, 1, 7, false⟩ []).step (.call (demoPublish .atMostOnce)) = some (s', .called (demoPublish .atMostOnce) none p) ∧
      (∃ bs, p.write = .ok bs ∧ bs.length = 9) ∧ (∃ bs k, p.asyncWrite = .ok (bs, k) ∧ bs.length = 9) :=
  ⟨_, _, rfl, ⟨_, rfl, rfl⟩, ⟨_, _, rfl, rfl⟩⟩

example : ∃ p, (demoPublish .atLeastOnce).packet (some 1) = some p ∧ p.type = .publish ∧ WF p ∧ SentSize p 11 :=
  ⟨_, rfl, rfl, ⟨by simp [StrOk], by simp, Mqrstt.Witness.wf_empty _⟩, .inl ⟨_, rfl, rfl⟩⟩

end Mqrstt.Props
