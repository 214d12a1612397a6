import Verif.Proof.SessionRun
/-!
# Consequences of the invariant for single steps
-/

namespace Mqrstt
open Spec

variable {n r : UInt16} {clean : Bool} {s : Sys} {l : Ledger} {lost : List UInt16}

/-- receiving, in terms of the handler's result -/
theorem Sys.step_receive (ha : s.alive = true) (p : Packet) :
    s.step (.receive p) = match Handler.incomingState s.handler.state p with
      | (st, .ok (reply, shown)) => some ({ s with handler := { s.handler with state := st } }, .received p reply shown)
      | (st, .error (.err e)) => some ({ s with handler := { s.handler with state := st } }, .receivedError p e)
      | (st, .error .panic) => some (({ s with handler := { s.handler with state := st } } : Sys).die, .panicked) := by
  simp only [Sys.step, ha, if_true, Handler.incoming]
  generalize Handler.incomingState s.handler.state p = out
  obtain ⟨st, res⟩ := out
  rcases res with f | ⟨reply, shown⟩
  · cases f <;> rfl
  · rfl

theorem Live.mem_order (hl : Live r s.queue s.handler.state l) {id : UInt16} :
    id ∈ l.publishIds ↔ ∃ p, s.handler.state.stored id = some p := by
  constructor
  · intro hm
    obtain ⟨p, hp, hpk⟩ := List.mem_filterMap.mp hm
    obtain ⟨id', h1, _, h3⟩ := hl.stored p hp
    have hpk' : p.pkid = some id := hpk
    rw [hpk'] at h1
    obtain rfl := Option.some.inj h1
    exact ⟨p, h3⟩
  · rintro ⟨p, hp⟩
    obtain ⟨h1, h2⟩ := hl.only id p hp
    exact List.mem_filterMap.mpr ⟨p, h1, h2⟩

theorem Ledger.mem_ids {l : Ledger} {id : UInt16}
    (h : id ∈ l.publishIds ∨ id ∈ l.accepted ∨ id ∈ l.subscribes ∨ id ∈ l.unsubscribes) : id ∈ l.ids := by
  simp only [Ledger.ids, List.mem_append]
  rcases h with h | h | h | h <;> simp [h]

theorem Inv.room (h : Inv n r clean s l lost) {id : UInt16} (hm : id ∈ l.ids) :
    s.pool.queue.length < s.pool.cap := by
  have h1 := h.length
  rw [h.cap]
  have h2 := List.length_pos_of_mem hm
  omega

/-- a PUBACK for an unacknowledged publish gives the identifier back -/
theorem Inv.pubAck_known (h : Inv n r clean s l lost) (ha : s.alive = true) (hc : s.pool.closed = false)
    {a : Ack} (hm : a.id ∈ l.publishIds) :
    ∃ s', s.step (.receive (.pubAck a)) = some (s', .received (.pubAck a) none true) ∧
      s'.pool.queue = s.pool.queue ++ [a.id] := by
  have hl := h.live ha
  obtain ⟨p, hp⟩ := hl.mem_order.mp hm
  rw [Sys.step_receive ha]
  simp only [Handler.incomingState, Handler.incomingPubAck]
  rcases State.removeOutgoingPub_eq s.handler.state a.id with ⟨hi, _⟩ | ⟨i, _, hn, _⟩ | ⟨i, p', hi, hs, hr⟩
  · simp [State.stored, hi] at hp
  · rw [hn] at hp; simp at hp
  · rw [hr]
    simp only
    rw [Handler.release_open]
    · exact ⟨_, rfl, rfl⟩
    · exact hc
    · exact h.room (Ledger.mem_ids (.inl hm))

/-- a PUBREC for an unacknowledged publish -/
theorem Inv.pubRec_known (h : Inv n r clean s l lost) (ha : s.alive = true)
    {a : Ack} (hm : a.id ∈ l.publishIds) :
    ∃ s', s.step (.receive (.pubRec a)) = some (s', .received (.pubRec a)
        (if Ledger.accepts a then some (.pubRel (State.successAck a.id)) else none) true) ∧
      s'.pool = s.pool := by
  have hl := h.live ha
  obtain ⟨p, hp⟩ := hl.mem_order.mp hm
  rw [Sys.step_receive ha]
  simp only [Handler.incomingState, Handler.incomingPubRec]
  rcases State.removeOutgoingPub_eq s.handler.state a.id with ⟨hi, _⟩ | ⟨i, _, hn, _⟩ | ⟨i, p', hi, hs, hr⟩
  · simp [State.stored, hi] at hp
  · rw [hn] at hp; simp at hp
  · rw [hr]
    by_cases hacc : a.reason = .success ∨ a.reason = .noMatchingSubscribers
    · have hacc' : Ledger.accepts a = true := by simpa [Ledger.accepts] using hacc
      simp only [if_pos hacc, hacc', if_true]
      exact ⟨_, rfl, rfl⟩
    · have hacc' : Ledger.accepts a = false := by
        simp only [Ledger.accepts, Bool.or_eq_false_iff, decide_eq_false_iff_not]
        exact ⟨fun hh => hacc (Or.inl hh), fun hh => hacc (Or.inr hh)⟩
      simp only [if_neg hacc, hacc', Bool.false_eq_true, if_false]
      exact ⟨_, rfl, rfl⟩

theorem Live.mem_rel (hl : Live r s.queue s.handler.state l) {id : UInt16} :
    id ∈ s.handler.state.rel ↔ id ∈ l.accepted := by
  rw [← List.count_pos_iff, ← List.count_pos_iff, hl.rel]

theorem Live.mem_sub (hl : Live r s.queue s.handler.state l) {id : UInt16} :
    id ∈ s.handler.state.sub ↔ id ∈ l.subscribes := by
  rw [← List.count_pos_iff, ← List.count_pos_iff, hl.sub]

theorem Live.mem_unsub (hl : Live r s.queue s.handler.state l) {id : UInt16} :
    id ∈ s.handler.state.unsub ↔ id ∈ l.unsubscribes := by
  rw [← List.count_pos_iff, ← List.count_pos_iff, hl.unsub]

theorem Inv.pubComp_known (h : Inv n r clean s l lost) (ha : s.alive = true) (hc : s.pool.closed = false)
    {a : Ack} (hm : a.id ∈ l.accepted) :
    ∃ s', s.step (.receive (.pubComp a)) = some (s', .received (.pubComp a) none true) ∧
      s'.pool.queue = s.pool.queue ++ [a.id] := by
  have hb : s.handler.state.rel.contains a.id = true := by simpa using (h.live ha).mem_rel.mpr hm
  rw [Sys.step_receive ha]
  simp only [Handler.incomingState, Handler.incomingPubComp, State.removeOutgoingRel, IdSet.remove, hb, if_true]
  rw [Handler.release_open]
  · exact ⟨_, rfl, rfl⟩
  · exact hc
  · exact h.room (Ledger.mem_ids (.inr (.inl hm)))

theorem Inv.subAck_known (h : Inv n r clean s l lost) (ha : s.alive = true) (hc : s.pool.closed = false)
    {a : CodesAck} (hm : a.id ∈ l.subscribes) :
    ∃ s', s.step (.receive (.subAck a)) = some (s', .received (.subAck a) none true) ∧
      s'.pool.queue = s.pool.queue ++ [a.id] := by
  have hb : s.handler.state.sub.contains a.id = true := by simpa using (h.live ha).mem_sub.mpr hm
  rw [Sys.step_receive ha]
  simp only [Handler.incomingState, Handler.incomingSubAck, State.removeOutgoingSub, IdSet.remove, hb, if_true]
  rw [Handler.release_open]
  · exact ⟨_, rfl, rfl⟩
  · exact hc
  · exact h.room (Ledger.mem_ids (.inr (.inr (.inl hm))))

theorem Inv.unsubAck_known (h : Inv n r clean s l lost) (ha : s.alive = true) (hc : s.pool.closed = false)
    {a : CodesAck} (hm : a.id ∈ l.unsubscribes) :
    ∃ s', s.step (.receive (.unsubAck a)) = some (s', .received (.unsubAck a) none true) ∧
      s'.pool.queue = s.pool.queue ++ [a.id] := by
  have hb : s.handler.state.unsub.contains a.id = true := by simpa using (h.live ha).mem_unsub.mpr hm
  rw [Sys.step_receive ha]
  simp only [Handler.incomingState, Handler.incomingUnsubAck, State.removeOutgoingUnsub, IdSet.remove, hb, if_true]
  rw [Handler.release_open]
  · exact ⟨_, rfl, rfl⟩
  · exact hc
  · exact h.room (Ledger.mem_ids (.inr (.inr (.inr hm))))

/-! ## acknowledgements of nothing -/

theorem Inv.pubAck_unknown (h : Inv n r clean s l lost) (ha : s.alive = true) {a : Ack}
    (h1 : 1 ≤ a.id.toNat) (h2 : a.id.toNat ≤ r.toNat) (hm : a.id ∉ l.publishIds) :
    s.step (.receive (.pubAck a)) = some (s, .receivedError (.pubAck a) (.unsolicited a.id .pubAck)) := by
  have hl := h.live ha
  rw [Sys.step_receive ha]
  simp only [Handler.incomingState, Handler.incomingPubAck]
  rcases State.removeOutgoingPub_eq s.handler.state a.id with ⟨hi, _⟩ | ⟨i, _, hn, hr⟩ | ⟨i, p', hi, hs, hr⟩
  · rcases State.slotIndex_eq_none.mp hi with h0 | h0
    · rw [h0] at h1; exact absurd h1 (by decide)
    · rw [hl.slots] at h0; omega
  · rw [hr, erase_unknown hl hn]; rfl
  · exact absurd (hl.mem_order.mpr ⟨p', hs⟩) hm

theorem Inv.pubRec_unknown (h : Inv n r clean s l lost) (ha : s.alive = true) {a : Ack}
    (h1 : 1 ≤ a.id.toNat) (h2 : a.id.toNat ≤ r.toNat) (hm : a.id ∉ l.publishIds) :
    s.step (.receive (.pubRec a)) = some (s, .receivedError (.pubRec a) (.unsolicited a.id .pubRec)) := by
  have hl := h.live ha
  rw [Sys.step_receive ha]
  simp only [Handler.incomingState, Handler.incomingPubRec]
  rcases State.removeOutgoingPub_eq s.handler.state a.id with ⟨hi, _⟩ | ⟨i, _, hn, hr⟩ | ⟨i, p', hi, hs, hr⟩
  · rcases State.slotIndex_eq_none.mp hi with h0 | h0
    · rw [h0] at h1; exact absurd h1 (by decide)
    · rw [hl.slots] at h0; omega
  · rw [hr, erase_unknown hl hn]; rfl
  · exact absurd (hl.mem_order.mpr ⟨p', hs⟩) hm

theorem Inv.pubComp_unknown (h : Inv n r clean s l lost) (ha : s.alive = true) {a : Ack}
    (hm : a.id ∉ l.accepted) :
    s.step (.receive (.pubComp a)) = some (s, .receivedError (.pubComp a) (.unsolicited a.id .pubComp)) := by
  have hm' : a.id ∉ s.handler.state.rel := fun x => hm ((h.live ha).mem_rel.mp x)
  have hb : s.handler.state.rel.contains a.id = false := by simpa using hm'
  rw [Sys.step_receive ha]
  simp only [Handler.incomingState, Handler.incomingPubComp, State.removeOutgoingRel, IdSet.remove, hb,
    Bool.false_eq_true, if_false, List.erase_of_not_mem hm']
  rfl

theorem Inv.subAck_unknown (h : Inv n r clean s l lost) (ha : s.alive = true) {a : CodesAck}
    (hm : a.id ∉ l.subscribes) :
    s.step (.receive (.subAck a)) = some (s, .receivedError (.subAck a) (.unsolicited a.id .subAck)) := by
  have hm' : a.id ∉ s.handler.state.sub := fun x => hm ((h.live ha).mem_sub.mp x)
  have hb : s.handler.state.sub.contains a.id = false := by simpa using hm'
  rw [Sys.step_receive ha]
  simp only [Handler.incomingState, Handler.incomingSubAck, State.removeOutgoingSub, IdSet.remove, hb,
    Bool.false_eq_true, if_false, List.erase_of_not_mem hm']
  rfl

theorem Inv.unsubAck_unknown (h : Inv n r clean s l lost) (ha : s.alive = true) {a : CodesAck}
    (hm : a.id ∉ l.unsubscribes) :
    s.step (.receive (.unsubAck a)) = some (s, .receivedError (.unsubAck a) (.unsolicited a.id .unsubAck)) := by
  have hm' : a.id ∉ s.handler.state.unsub := fun x => hm ((h.live ha).mem_unsub.mp x)
  have hb : s.handler.state.unsub.contains a.id = false := by simpa using hm'
  rw [Sys.step_receive ha]
  simp only [Handler.incomingState, Handler.incomingUnsubAck, State.removeOutgoingUnsub, IdSet.remove, hb,
    Bool.false_eq_true, if_false, List.erase_of_not_mem hm']
  rfl

/-- an identifier no slot exists for -/
theorem Inv.ack_no_slot (h : Inv n r clean s l lost) (ha : s.alive = true) {a : Ack}
    (hi : a.id = 0 ∨ r.toNat < a.id.toNat) :
    (∃ s', s.step (.receive (.pubAck a)) = some (s', .panicked)) ∧
    (∃ s', s.step (.receive (.pubRec a)) = some (s', .panicked)) := by
  have hl := h.live ha
  have hn : s.handler.state.slotIndex a.id = none := State.slotIndex_eq_none.mpr (by rw [hl.slots]; exact hi)
  rw [Sys.step_receive ha, Sys.step_receive ha]
  simp only [Handler.incomingState, Handler.incomingPubAck, Handler.incomingPubRec]
  rcases State.removeOutgoingPub_eq s.handler.state a.id with ⟨_, hr⟩ | ⟨i, hi', _, _⟩ | ⟨i, _, hi', _, _⟩
  · rw [hr]; exact ⟨⟨_, rfl⟩, ⟨_, rfl⟩⟩
  · rw [hn] at hi'; simp at hi'
  · rw [hn] at hi'; simp at hi'

/-- what makes the client panic -/
inductive Fatal (r : UInt16) (s : Sys) : Op → Prop
  | ack (a : Ack) (p : Packet) (hp : p = .pubAck a ∨ p = .pubRec a) (h : a.id = 0 ∨ r.toNat < a.id.toNat) :
      Fatal r s (.receive p)
  | publish (p : Publish) (id : UInt16) (rest : List Packet) (hq : s.queue = .publish p :: rest)
      (hid : p.pkid = some id) (h : r.toNat < id.toNat) : Fatal r s (.write true)

theorem shown_release_ne_panic {st : State} {id : UInt16} (hl : st.pool.queue.length < st.pool.cap) :
    (Handler.shown (Handler.release st id)).2 ≠ .error .panic := by
  cases hc : st.pool.closed with
  | false => rw [Handler.release_open hc hl]; simp [Handler.shown]
  | true => rw [Handler.release_closed hc]; simp [Handler.shown]

theorem Inv.receive_panic (h : Inv n r clean s l lost) (ha : s.alive = true) {p : Packet}
    (hp : (Handler.incomingState s.handler.state p).2 = .error .panic) : Fatal r s (.receive p) := by
  have hl := h.live ha
  cases p with
  | publish p =>
    exfalso
    simp only [Handler.incomingState, Handler.incomingPublish] at hp
    cases hq : p.qos <;> cases hk : p.pkid <;> rw [hq] at hp <;> (try rw [hk] at hp) <;> simp at hp
  | pubAck a =>
    refine .ack a _ (Or.inl rfl) ?_
    simp only [Handler.incomingState, Handler.incomingPubAck] at hp
    rcases State.removeOutgoingPub_eq s.handler.state a.id with ⟨hi, _⟩ | ⟨i, _, hn, hr⟩ | ⟨i, p', hi, hs, hr⟩
    · rw [State.slotIndex_eq_none, hl.slots] at hi; exact hi
    · rw [hr] at hp; simp [Handler.shown] at hp
    · rw [hr] at hp
      exact absurd hp (shown_release_ne_panic (h.room (Ledger.mem_ids (.inl (hl.mem_order.mpr ⟨p', hs⟩)))))
  | pubRec a =>
    refine .ack a _ (Or.inr rfl) ?_
    simp only [Handler.incomingState, Handler.incomingPubRec] at hp
    rcases State.removeOutgoingPub_eq s.handler.state a.id with ⟨hi, _⟩ | ⟨i, _, hn, hr⟩ | ⟨i, p', hi, hs, hr⟩
    · rw [State.slotIndex_eq_none, hl.slots] at hi; exact hi
    · rw [hr] at hp; simp [Handler.shown] at hp
    · rw [hr] at hp
      simp only at hp
      split at hp <;> simp [Handler.shown] at hp
  | pubRel a => simp [Handler.incomingState, Handler.incomingPubRel, Handler.shown] at hp
  | pubComp a =>
    simp only [Handler.incomingState, Handler.incomingPubComp, State.removeOutgoingRel, IdSet.remove] at hp
    cases hb : s.handler.state.rel.contains a.id with
    | true =>
      simp only [hb, if_true] at hp
      have hm : a.id ∈ l.accepted := hl.mem_rel.mp (by simpa using hb)
      exact absurd hp (shown_release_ne_panic (h.room (Ledger.mem_ids (.inr (.inl hm)))))
    | false => simp only [hb, Bool.false_eq_true, if_false, Handler.shown] at hp; simp at hp
  | subAck a =>
    simp only [Handler.incomingState, Handler.incomingSubAck, State.removeOutgoingSub, IdSet.remove] at hp
    cases hb : s.handler.state.sub.contains a.id with
    | true =>
      simp only [hb, if_true] at hp
      have hm : a.id ∈ l.subscribes := hl.mem_sub.mp (by simpa using hb)
      exact absurd hp (shown_release_ne_panic (h.room (Ledger.mem_ids (.inr (.inr (.inl hm))))))
    | false => simp only [hb, Bool.false_eq_true, if_false, Handler.shown] at hp; simp at hp
  | unsubAck a =>
    simp only [Handler.incomingState, Handler.incomingUnsubAck, State.removeOutgoingUnsub, IdSet.remove] at hp
    cases hb : s.handler.state.unsub.contains a.id with
    | true =>
      simp only [hb, if_true] at hp
      have hm : a.id ∈ l.unsubscribes := hl.mem_unsub.mp (by simpa using hb)
      exact absurd hp (shown_release_ne_panic (h.room (Ledger.mem_ids (.inr (.inr (.inr hm))))))
    | false => simp only [hb, Bool.false_eq_true, if_false, Handler.shown] at hp; simp at hp
  | _ => simp [Handler.incomingState] at hp

theorem Inv.step_panicked (h : Inv n r clean s l lost) {op : Op} {s' : Sys}
    (hs : s.step op = some (s', .panicked)) : Fatal r s op := by
  cases op with
  | call q =>
    exfalso
    simp only [Sys.step, Sys.call, Sys.callWith] at hs
    repeat' split at hs
    all_goals simp at hs
  | submit k =>
    exfalso
    simp only [Sys.step] at hs
    repeat' split at hs
    all_goals simp at hs
  | abandon k =>
    exfalso
    simp only [Sys.step] at hs
    repeat' split at hs
    all_goals simp at hs
  | dropClients => simp [Sys.step] at hs
  | dropNetwork =>
    exfalso
    simp only [Sys.step] at hs
    repeat' split at hs
    all_goals simp at hs
  | write ok =>
    simp only [Sys.step] at hs
    split at hs
    · rename_i ha
      cases hq : s.queue with
      | nil => rw [hq] at hs; simp at hs
      | cons p rest =>
        rw [hq] at hs
        simp only at hs
        cases ok with
        | false => simp at hs
        | true =>
          simp only [if_true, Handler.outgoing] at hs
          rcases h.write_ok ha hq with ⟨st, hst, _, _⟩ | ⟨_, id, hid, hlt, ht⟩
          · rw [hst] at hs; simp at hs
          · cases p with
            | publish p => exact .publish p id rest hq hid hlt
            | _ => exact absurd ht (by simp [Packet.type])
    · simp at hs
  | receive p =>
    have ha : s.alive = true := by
      cases ha : s.alive with
      | true => rfl
      | false => simp [Sys.step, ha] at hs
    rw [Sys.step_receive ha] at hs
    apply h.receive_panic ha
    generalize Handler.incomingState s.handler.state p = out at hs
    obtain ⟨st, res⟩ := out
    rcases res with f | ⟨reply, shown⟩
    · cases f with
      | err e => simp at hs
      | panic => rfl
    · simp at hs
  | connAck c =>
    exfalso
    simp only [Sys.step] at hs
    split at hs
    · rename_i ha
      have hr := h.connAck ha c
      generalize s.handler.connAck c = out at hs hr
      obtain ⟨hd, res⟩ := out
      rcases res with f | o
      · cases f with
        | err e => simp at hs
        | panic => exact hr.panic rfl
      · cases o <;> simp at hs
    · simp at hs

/-! ## connecting -/

theorem Inv.connAck_ok (h : Inv n r clean s l lost) (ha : s.alive = true) (hc : s.pool.closed = false)
    {c : ConnAck} (hsucc : c.reason = .success) :
    ∃ s' ps, s.step (.connAck c) = some (s', .connected c ps) := by
  have hr := h.connAck ha c
  simp only [Sys.step, ha, if_true]
  cases e : s.handler.connAck c with
  | mk hd res =>
    rw [e] at hr
    rcases res with f | o
    · cases f with
      | panic => exact absurd rfl hr.panic
      | err er => exact absurd ((hr.err er rfl).2.1.symm.trans hc) (by simp)
    · cases o with
      | none => exact absurd hsucc (hr.none rfl).1
      | some ps => exact ⟨_, ps, rfl⟩

theorem Inv.connAck_event (h : Inv n r clean s l lost) {c : ConnAck} {s' : Sys} {ps : List Packet}
    (hs : s.step (.connAck c) = some (s', .connected c ps)) :
    c.reason = .success ∧
    Inv n r clean s' (l.onConnected clean c) (lost ++ l.leak clean (.connected c ps)) ∧
    (Ledger.resumed clean c = true →
      ps = l.unacked.map again ++ s.handler.state.rel.map fun id => .pubRel (State.successAck id)) ∧
    (Ledger.resumed clean c = false → ps = []) ∧ s.handler.state.rel.Perm l.accepted := by
  simp only [Sys.step] at hs
  split at hs
  · rename_i ha
    have hr := h.connAck ha c
    cases e : s.handler.connAck c with
    | mk hd res =>
      rw [e] at hr hs
      rcases res with f | o
      · cases f <;> simp at hs
      · cases o with
        | none => simp at hs
        | some ps' =>
          simp only [Option.some.injEq, Prod.mk.injEq, Event.connected.injEq, true_and] at hs
          obtain ⟨rfl, rfl⟩ := hs
          obtain ⟨a1, a2, a3, a4⟩ := hr.ok _ rfl
          exact ⟨a1, a2, a3, a4, List.perm_iff_count.mpr (h.live ha).rel⟩
  · simp at hs

/-! ## the ledger's unacknowledged publishes -/

theorem filterMap_length : ∀ (ps : List Publish), (∀ p ∈ ps, ∃ id, p.pkid = some id) →
    (ps.filterMap (·.pkid)).length = ps.length
  | [], _ => rfl
  | p :: ps, hp => by
    obtain ⟨id, hid⟩ := hp p (by simp)
    rw [List.filterMap_cons_some hid, List.length_cons, List.length_cons,
      filterMap_length ps (fun x hx => hp x (by simp [hx]))]

/-- only a written publish enters the list -/
theorem Ledger.unacked_step {clean : Bool} {l : Ledger} {e : Event} {p : Publish}
    (h : p ∈ (l.step clean e).unacked) : p ∈ l.unacked ∨ e = .written (.publish p) := by
  have hr : ∀ x, p ∈ (l.onReceived x).unacked → p ∈ l.unacked := by
    intro x hx
    cases x <;> first | exact hx | exact (List.mem_filter.mp hx).1
  have hc : ∀ c, p ∈ (l.onConnected clean c).unacked → p ∈ l.unacked := by
    intro c hx
    simp only [Ledger.onConnected] at hx
    split at hx
    · exact hx
    · simp at hx
  cases e with
  | written x =>
    cases x with
    | publish q =>
      simp only [Ledger.step, Ledger.onWritten] at h
      split at h
      · exact Or.inl h
      · rcases List.mem_append.mp h with h | h
        · exact Or.inl h
        · rw [List.mem_singleton.mp h]; exact Or.inr rfl
    | _ => exact Or.inl h
  | received x _ _ => exact Or.inl (hr x h)
  | receivedError x e => cases e <;> first | exact Or.inl h | exact Or.inl (hr x h)
  | connected c _ => exact Or.inl (hc c h)
  | connectError c _ => exact Or.inl (hc c h)
  | _ => exact Or.inl h

/-- a step that reports a written packet leaves the network alive -/
theorem Sys.step_written {s s' : Sys} {op : Op} {p : Packet} (hs : s.step op = some (s', .written p)) :
    s'.alive = true := by
  cases op with
  | call q =>
    simp only [Sys.step, Sys.call, Sys.callWith] at hs
    repeat' split at hs
    all_goals simp at hs
  | submit k =>
    simp only [Sys.step] at hs
    repeat' split at hs
    all_goals simp at hs
  | abandon k =>
    simp only [Sys.step] at hs
    repeat' split at hs
    all_goals simp at hs
  | dropClients => simp [Sys.step] at hs
  | dropNetwork =>
    simp only [Sys.step] at hs
    repeat' split at hs
    all_goals simp at hs
  | write ok =>
    simp only [Sys.step] at hs
    split at hs
    · rename_i ha
      repeat' split at hs
      all_goals simp at hs
      obtain ⟨rfl, _⟩ := hs
      exact ha
    · simp at hs
  | receive p =>
    simp only [Sys.step] at hs
    repeat' split at hs
    all_goals simp at hs
  | connAck c =>
    simp only [Sys.step] at hs
    repeat' split at hs
    all_goals simp at hs

theorem unacked_ids_run {n r : UInt16} {clean : Bool} : ∀ (ops : List Op) {s : Sys} {l : Ledger} {lost : List UInt16},
    Inv n r clean s l lost → (∀ p ∈ l.unacked, ∃ id, p.pkid = some id) →
    ∀ p ∈ ((s.run ops).2.foldl (Ledger.step clean) l).unacked, ∃ id, p.pkid = some id
  | [], s, l, lost, _, hp => by simpa [Sys.run] using hp
  | op :: ops, s, l, lost, h, hp => by
    unfold Sys.run
    cases hs : s.step op with
    | none => exact unacked_ids_run ops h hp
    | some v =>
      obtain ⟨s', e⟩ := v
      have hi := h.step hs
      refine unacked_ids_run ops hi ?_
      intro p hm
      rcases Ledger.unacked_step hm with h1 | h1
      · exact hp p h1
      · subst h1
        have hl := hi.live (Sys.step_written hs)
        obtain ⟨id, h2, _⟩ := hl.stored p hm
        exact ⟨id, h2⟩

theorem unacked_ids (n r : UInt16) (m : Nat) (clean : Bool) (ops : List Op) :
    ∀ p ∈ (Ledger.after clean ((Sys.init n r m clean).run ops).2).unacked, ∃ id, p.pkid = some id :=
  unacked_ids_run ops (Inv.start n r m clean) (by intro p hp; simp [Ledger.empty] at hp)

end Mqrstt
