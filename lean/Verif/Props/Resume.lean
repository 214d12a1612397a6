import Verif.Props.Session
/-!
# Unacknowledged publishes, resumption, fresh sessions, the QoS 2 sender (C25-C28)
-/

namespace Mqrstt.Props
open Mqrstt Spec

/-! ## C26 -/

/-- the PUBREL that continues the QoS 2 handshake of an identifier -/
def relFor (id : UInt16) : Packet := .pubRel ⟨id, .success, .empty⟩

/-- **C26.** When a CONNACK resumes the session, what is sent again is exactly: the unacknowledged publishes, in
the order in which they were first written, each as it was written except that DUP is set; then one
PUBREL for every identifier waiting for PUBCOMP. -/
theorem C26_resumption (cfg : Config) (ops : List Op) (c : ConnAck) (s' : Sys) (resend : List Packet)
    (h : (client cfg ops).step (.connAck c) = some (s', .connected c resend))
    (hresumed : c.sessionPresent = true ∧ cfg.cleanStart = false) :
    ∃ rels : List UInt16, rels.Perm (ledger cfg ops).accepted ∧ rels.Nodup ∧
      resend = ((ledger cfg ops).unacked.map fun p => .publish { p with dup := true }) ++ rels.map relFor := by
  have hi := inv cfg ops
  obtain ⟨_, _, h1, _, h2⟩ := hi.connAck_event h
  refine ⟨_, h2, ?_, h1 (by simp [Ledger.resumed, hresumed])⟩
  rw [h2.nodup_iff, List.nodup_iff_count]
  intro a
  have := hi.le_one a
  omega

/-- **C26.** As long as the network and a client exist, a successful CONNACK is always processed: there is
no history after which reconnecting is an error or panics. -/
theorem C26_reconnect_succeeds (cfg : Config) (ops : List Op) (c : ConnAck) (hc : c.reason = .success)
    (hnet : (client cfg ops).alive = true) (hclients : (client cfg ops).pool.closed = false) :
    ∃ s' resend, (client cfg ops).step (.connAck c) = some (s', .connected c resend) :=
  (inv cfg ops).connAck_ok hnet hclients hc

/-- two publishes, the first with identifier 2 and the second with identifier 1, and one PUBREL -/
example :
    let ops := sendOps (demoPublish .atLeastOnce) ++ sendOps (demoPublish .exactlyOnce) ++
      [.receive (.pubAck ⟨1, .success, .empty⟩)] ++ sendOps (demoPublish .exactlyOnce) ++
      [.receive (.pubRec ⟨1, .success, .empty⟩)]
    let s := client demo ops
    (∃ s', s.step (.connAck (sessionConnAck true)) = some (s', .connected (sessionConnAck true)
      [.publish ⟨true, .exactlyOnce, false, ⟨[116], by decide⟩, some 2, .empty, [1, 2, 3]⟩, relFor 1])) := by
  exact ⟨_, rfl⟩

/-! ## C25 -/

/-- events after which a publish with this identifier need no longer be kept: a PUBACK or PUBREC for it, or
a connection without the old session -/
def EndsPublish (cleanStart : Bool) (id : UInt16) : Event → Prop
  | .received (.pubAck a) _ _ => a.id = id
  | .received (.pubRec a) _ _ => a.id = id
  | .receivedError (.pubAck a) _ => a.id = id
  | .receivedError (.pubRec a) _ => a.id = id
  | .connected c _ => (c.sessionPresent && !cleanStart) = false
  | .connectError c _ => (c.sessionPresent && !cleanStart) = false
  | _ => False

theorem kept_step {clean : Bool} {l : Ledger} {e : Event} {p : Publish} {id : UInt16}
    (hid : p.pkid = some id) (h : p ∈ l.unacked) (he : ¬ EndsPublish clean id e) :
    p ∈ (l.step clean e).unacked := by
  have hr : ∀ x, (∀ a, x = .pubAck a ∨ x = .pubRec a → a.id ≠ id) → p ∈ (l.onReceived x).unacked := by
    intro x hx
    cases x with
    | pubAck a =>
      have := hx a (Or.inl rfl)
      exact List.mem_filter.mpr ⟨h, by simp [hid, Ne.symm this]⟩
    | pubRec a =>
      have := hx a (Or.inr rfl)
      exact List.mem_filter.mpr ⟨h, by simp [hid, Ne.symm this]⟩
    | _ => exact h
  have hc : ∀ c, ¬ (c.sessionPresent && !clean) = false → p ∈ (l.onConnected clean c).unacked := by
    intro c hx
    have hres : Ledger.resumed clean c = true := by
      simp only [Bool.not_eq_false] at hx
      exact hx
    simp only [Ledger.onConnected, hres, if_true]; exact h
  cases e with
  | written x =>
    cases x with
    | publish q =>
      simp only [Ledger.step, Ledger.onWritten]
      split
      · exact h
      · exact List.mem_append_left _ h
    | _ => exact h
  | received x a b =>
    refine hr x ?_
    rintro a (rfl | rfl) <;> exact he
  | receivedError x e =>
    cases e with
    | packetIdChannelError j =>
      refine hr x ?_
      rintro a (rfl | rfl) <;> exact he
    | _ => exact h
  | connected c _ => exact hc c he
  | connectError c _ => exact hc c he
  | _ => exact h

theorem kept {clean : Bool} {p : Publish} {id : UInt16} (hid : p.pkid = some id) : ∀ (es : List Event) (l : Ledger),
    p ∈ l.unacked → (∀ e ∈ es, ¬ EndsPublish clean id e) → p ∈ (es.foldl (Ledger.step clean) l).unacked
  | [], _, h, _ => h
  | e :: es, l, h, he => kept hid es _ (kept_step hid h (he e (by simp))) (fun x hx => he x (by simp [hx]))

/-- **C25.** Suppose a publish of QoS 1 or 2 was written and since then no PUBACK or PUBREC for its identifier was
received and no connection without the old session was made. Whatever else happened, if the
session is resumed now the publish is sent again, unchanged except for DUP. -/
theorem C25_unacked_kept (cfg : Config) (ops : List Op) (p : Publish) (id : UInt16)
    (before after : List Event) (hid : p.pkid = some id) (hqos : p.qos ≠ .atMostOnce)
    (hist : events cfg ops = before ++ .written (.publish p) :: after)
    (hkept : ∀ e ∈ after, ¬ EndsPublish cfg.cleanStart id e)
    (c : ConnAck) (s' : Sys) (resend : List Packet)
    (h : (client cfg ops).step (.connAck c) = some (s', .connected c resend))
    (hresumed : c.sessionPresent = true ∧ cfg.cleanStart = false) :
    .publish { p with dup := true } ∈ resend := by
  obtain ⟨rels, _, _, rfl⟩ := C26_resumption cfg ops c s' resend h hresumed
  refine List.mem_append_left _ (List.mem_map.mpr ⟨p, ?_, rfl⟩)
  simp only [ledger, Ledger.after, hist, List.foldl_append, List.foldl_cons]
  refine kept hid after _ ?_ hkept
  simp [Ledger.step, Ledger.onWritten, hqos]

/-- nothing but the written publishes is ever kept, and each at most once -/
theorem C25_only_written_kept (cfg : Config) (ops : List Op) :
    (∀ p ∈ (ledger cfg ops).unacked, Event.written (.publish p) ∈ events cfg ops) ∧
    ((ledger cfg ops).unacked.map (·.pkid)).Nodup := by
  constructor
  · have : ∀ (es : List Event) (l : Ledger) (p : Publish), p ∈ (es.foldl (Ledger.step cfg.cleanStart) l).unacked →
        p ∈ l.unacked ∨ Event.written (.publish p) ∈ es := by
      intro es
      induction es with
      | nil => intro l p hp; exact Or.inl hp
      | cons e es ih =>
        intro l p hp
        rcases ih _ p hp with h1 | h1
        · rcases Ledger.unacked_step h1 with h2 | h2
          · exact Or.inl h2
          · exact Or.inr (by rw [h2]; simp)
        · exact Or.inr (List.mem_cons_of_mem _ h1)
    intro p hp
    rcases this _ _ p hp with h1 | h1
    · simp [Ledger.empty] at h1
    · exact h1
  · have hids : ∀ p ∈ (ledger cfg ops).unacked, ∃ id, p.pkid = some id := unacked_ids cfg.sendMax cfg.recvMax cfg.maxPacketSize cfg.cleanStart ops
    have hnd : (ledger cfg ops).publishIds.Nodup := by
      rw [List.nodup_iff_count]; intro a; have := (inv cfg ops).le_one a; omega
    have : ∀ (ps : List Publish), (∀ p ∈ ps, ∃ id, p.pkid = some id) →
        ps.map (·.pkid) = (ps.filterMap (·.pkid)).map some := by
      intro ps
      induction ps with
      | nil => intro _; rfl
      | cons p ps ih =>
        intro hp
        obtain ⟨id, hid⟩ := hp p (by simp)
        rw [List.filterMap_cons_some hid, List.map_cons, List.map_cons, hid, ih (fun x hx => hp x (by simp [hx]))]
    rw [this _ hids]
    rw [List.nodup_iff_pairwise_ne, List.pairwise_map]
    exact (List.nodup_iff_pairwise_ne.mp hnd).imp (fun hab h => hab (Option.some.inj h))

/-- the hypotheses are met after other operations, an unrelated PUBACK and a reconnect with the session -/
example :
    let ops := sendOps (demoPublish .exactlyOnce) ++ sendOps (demoPublish .atLeastOnce) ++
      [.receive (.pubAck ⟨2, .success, .empty⟩), .connAck (sessionConnAck true)]
    ∃ before after p, events demo ops = before ++ .written (.publish p) :: after ∧ p.pkid = some 1 ∧
      p.qos ≠ .atMostOnce ∧ (∀ e ∈ after, ¬ EndsPublish demo.cleanStart 1 e) ∧ after.length = 5 := by
  refine ⟨[_, _], [_, _, _, _, _], ⟨false, .exactlyOnce, false, ⟨[116], by decide⟩, some 1, .empty, [1, 2, 3]⟩, rfl, rfl, by decide, ?_, rfl⟩
  intro e he
  simp only [List.mem_cons, List.not_mem_nil, or_false] at he
  rcases he with rfl | rfl | rfl | rfl | rfl <;> simp [EndsPublish, demo, sessionConnAck]

/-! ## C27 -/

/-- **C27**, the part that holds: a connection without the old session re-sends nothing, forgets every
outstanding operation, and makes available exactly the identifiers of the subscribes, the unsubscribes and the
publishes that were not acknowledged. Missing: the identifiers of QoS 2 publishes waiting for PUBCOMP. -/
theorem C27_fresh_session_partial (cfg : Config) (ops : List Op) (c : ConnAck) (s' : Sys) (resend : List Packet)
    (h : (client cfg ops).step (.connAck c) = some (s', .connected c resend))
    (hfresh : c.sessionPresent = false ∨ cfg.cleanStart = true) :
    resend = [] ∧
    (let l := ledger cfg (ops ++ [.connAck c])
     l.unacked = [] ∧ l.accepted = [] ∧ l.subscribes = [] ∧ l.unsubscribes = [] ∧
     ∀ c' s'' resend', s'.step (.connAck c') = some (s'', .connected c' resend') → resend' = []) ∧
    s'.pool.queue.Perm ((client cfg ops).pool.queue ++
      ((ledger cfg ops).subscribes ++ (ledger cfg ops).unsubscribes ++ (ledger cfg ops).publishIds)) := by
  have hi := inv cfg ops
  have hres : Ledger.resumed cfg.cleanStart c = false := by
    rcases hfresh with h | h <;> simp [Ledger.resumed, h]
  obtain ⟨_, hinv, _, h2, _⟩ := hi.connAck_event h
  have hsnoc := client_snoc cfg ops h
  have hl : ledger cfg (ops ++ [.connAck c]) = (ledger cfg ops).onConnected cfg.cleanStart c := by
    simp only [ledger, Ledger.after, hsnoc.2, List.foldl_append, List.foldl_cons, List.foldl_nil, Ledger.step]
  refine ⟨h2 hres, ?_, ?_⟩
  · rw [hl]
    simp only [Ledger.onConnected, hres, Bool.false_eq_true, if_false, true_and]
    intro c' s'' resend' h'
    have hi' := inv cfg (ops ++ [.connAck c])
    rw [hsnoc.1] at hi'
    obtain ⟨_, _, b1, b2, b3⟩ := hi'.connAck_event h'
    rw [hl] at b1 b3
    simp only [Ledger.onConnected, hres, Bool.false_eq_true, if_false, List.map_nil, List.nil_append] at b1 b3
    rw [List.perm_nil] at b3
    cases hr : Ledger.resumed cfg.cleanStart c' with
    | true => rw [b1 hr, b3]; rfl
    | false => exact b2 hr
  · rw [List.perm_iff_count]
    intro a
    have h1 := hi.cnt a
    have h3 := hinv.cnt a
    rw [count_ids] at h1 h3
    simp only [Ledger.leak, Ledger.onConnected, hres, Bool.false_eq_true, if_false, List.count_append,
      List.count_nil, Ledger.publishIds, List.filterMap_nil] at h1 h3 ⊢
    omega

/-- **C27 is violated** for a QoS 2 publish that waits for PUBCOMP when the session is lost: after the
fresh connection nothing is outstanding and its identifier is not available. -/
theorem C27_awaiting_pubcomp_violated :
    ∃ (cfg : Config) (ops : List Op) (c : ConnAck) (s' : Sys), c.sessionPresent = false ∧
      (client cfg ops).step (.connAck c) = some (s', .connected c []) ∧
      (ledger cfg ops).accepted = [1] ∧ (ledger cfg (ops ++ [.connAck c])).ids = [] ∧
      1 ∉ s'.pool.queue ∧ s'.pool.closed = false :=
  ⟨demo, sendOps (demoPublish .exactlyOnce) ++ [.receive (.pubRec ⟨1, .success, .empty⟩)], sessionConnAck false, _, rfl, rfl,
    by decide, by decide, by decide, rfl⟩

example : let ops := sendOps (demoPublish .atLeastOnce) ++ sendOps (.subscribe [] .empty)
    ∃ s', (client demo ops).step (.connAck (sessionConnAck false)) = some (s', .connected (sessionConnAck false) []) ∧
      (ledger demo ops).ids = [1, 2] ∧ s'.pool.queue = [2, 1] := by
  exact ⟨_, rfl, by decide, by decide⟩

/-! ## C28 -/

/-- **C28.** A PUBREL that the client sends in answer to a packet answers a PUBREC that accepts an
unacknowledged publish with this identifier. (The only other PUBRELs are those of a resumed session, which C26
characterises.) -/
theorem C28_pubrel_only_after_pubrec (cfg : Config) (ops : List Op) (p : Packet) (s' : Sys) (a : Ack) (shown : Bool)
    (h : (client cfg ops).step (.receive p) = some (s', .received p (some (.pubRel a)) shown)) :
    ∃ b, p = .pubRec b ∧ a = ⟨b.id, .success, .empty⟩ ∧ Ledger.accepts b = true ∧
      ∃ q ∈ (ledger cfg ops).unacked, q.pkid = some b.id := by
  have hi := inv cfg ops
  have ha : (client cfg ops).alive = true := by
    cases ha : (client cfg ops).alive with
    | true => rfl
    | false => simp [Sys.step, ha] at h
  have hl := hi.live ha
  rw [Sys.step_receive ha] at h
  have hrel : ∀ st id, Handler.shown (Handler.release st id) = (s'.handler.state, .ok (some (.pubRel a), shown)) → False := by
    intro st id hh
    simp only [Handler.release] at hh
    split at hh <;> simp [Handler.shown] at hh
  cases p with
  | publish p =>
    exfalso
    simp only [Handler.incomingState, Handler.incomingPublish] at h
    cases hq : p.qos <;> cases hk : p.pkid <;> simp [hq, hk] at h
  | pubRec b =>
    refine ⟨b, rfl, ?_⟩
    simp only [Handler.incomingState, Handler.incomingPubRec] at h
    rcases State.removeOutgoingPub_eq (client cfg ops).handler.state b.id with ⟨_, hr⟩ | ⟨i, _, hn, hr⟩ | ⟨i, q, hiq, hs, hr⟩
    · rw [hr] at h; simp [Handler.shown] at h
    · rw [hr] at h; simp [Handler.shown] at h
    · rw [hr] at h
      obtain ⟨hm, hpk⟩ := hl.only _ _ hs
      by_cases hacc : b.reason = .success ∨ b.reason = .noMatchingSubscribers
      · simp only [if_pos hacc, Handler.shown, Option.some.injEq, Prod.mk.injEq, Event.received.injEq,
          Packet.pubRel.injEq] at h
        exact ⟨h.2.2.1.symm, by simpa [Ledger.accepts] using hacc, q, hm, hpk⟩
      · simp [if_neg hacc, Handler.shown] at h
  | pubAck b =>
    exfalso
    simp only [Handler.incomingState, Handler.incomingPubAck] at h
    rcases State.removeOutgoingPub_eq (client cfg ops).handler.state b.id with ⟨_, hr⟩ | ⟨i, _, hn, hr⟩ | ⟨i, q, hiq, hs, hr⟩
    · rw [hr] at h; simp [Handler.shown] at h
    · rw [hr] at h; simp [Handler.shown] at h
    · rw [hr] at h
      simp only [Handler.release] at h
      generalize State.makePkidAvailable _ b.id = y at h
      obtain ⟨st2, res⟩ := y
      rcases res with f | _
      · cases f <;> simp [Handler.shown] at h
      · simp [Handler.shown] at h
  | pubRel b => simp [Handler.incomingState, Handler.incomingPubRel, Handler.shown] at h
  | pubComp b =>
    exfalso
    simp only [Handler.incomingState, Handler.incomingPubComp] at h
    generalize State.removeOutgoingRel (client cfg ops).handler.state b.id = x at h
    obtain ⟨st, was⟩ := x
    cases was with
    | false => simp [Handler.shown] at h
    | true =>
      simp only [if_true, Handler.release] at h
      generalize State.makePkidAvailable st b.id = y at h
      obtain ⟨st2, res⟩ := y
      rcases res with f | _
      · cases f <;> simp [Handler.shown] at h
      · simp [Handler.shown] at h
  | subAck b =>
    exfalso
    simp only [Handler.incomingState, Handler.incomingSubAck] at h
    generalize State.removeOutgoingSub (client cfg ops).handler.state b.id = x at h
    obtain ⟨st, was⟩ := x
    cases was with
    | false => simp [Handler.shown] at h
    | true =>
      simp only [if_true, Handler.release] at h
      generalize State.makePkidAvailable st b.id = y at h
      obtain ⟨st2, res⟩ := y
      rcases res with f | _
      · cases f <;> simp [Handler.shown] at h
      · simp [Handler.shown] at h
  | unsubAck b =>
    exfalso
    simp only [Handler.incomingState, Handler.incomingUnsubAck] at h
    generalize State.removeOutgoingUnsub (client cfg ops).handler.state b.id = x at h
    obtain ⟨st, was⟩ := x
    cases was with
    | false => simp [Handler.shown] at h
    | true =>
      simp only [if_true, Handler.release] at h
      generalize State.makePkidAvailable st b.id = y at h
      obtain ⟨st2, res⟩ := y
      rcases res with f | _
      · cases f <;> simp [Handler.shown] at h
      · simp [Handler.shown] at h
  | _ => simp [Handler.incomingState] at h

/-- events that end the second half of the QoS 2 handshake: a PUBCOMP for the identifier, or a connection
without the old session -/
def EndsRelease (cleanStart : Bool) (id : UInt16) : Event → Prop
  | .received (.pubComp a) _ _ => a.id = id
  | .receivedError (.pubComp a) _ => a.id = id
  | .connected c _ => (c.sessionPresent && !cleanStart) = false
  | .connectError c _ => (c.sessionPresent && !cleanStart) = false
  | _ => False

theorem accepted_step {clean : Bool} {l : Ledger} {e : Event} {id : UInt16}
    (h : id ∈ l.accepted) (he : ¬ EndsRelease clean id e) : id ∈ (l.step clean e).accepted := by
  have hr : ∀ x, (∀ a, x = .pubComp a → a.id ≠ id) → id ∈ (l.onReceived x).accepted := by
    intro x hx
    cases x with
    | pubRec a =>
      simp only [Ledger.onReceived]
      split
      · exact List.mem_append_left _ h
      · exact h
    | pubComp a => exact (List.mem_erase_of_ne (Ne.symm (hx a rfl))).mpr h
    | _ => exact h
  have hc : ∀ c, ¬ (c.sessionPresent && !clean) = false → id ∈ (l.onConnected clean c).accepted := by
    intro c hx
    have hres : Ledger.resumed clean c = true := by
      simp only [Bool.not_eq_false] at hx
      exact hx
    simp only [Ledger.onConnected, hres, if_true]; exact h
  cases e with
  | written x =>
    cases x with
    | publish q => simp only [Ledger.step, Ledger.onWritten]; split <;> exact h
    | _ => exact h
  | received x a b =>
    refine hr x ?_
    rintro a rfl; exact he
  | receivedError x e =>
    cases e with
    | packetIdChannelError j =>
      refine hr x ?_
      rintro a rfl; exact he
    | _ => exact h
  | connected c _ => exact hc c he
  | connectError c _ => exact hc c he
  | _ => exact h

theorem accepted_kept {clean : Bool} {id : UInt16} : ∀ (es : List Event) (l : Ledger),
    id ∈ l.accepted → (∀ e ∈ es, ¬ EndsRelease clean id e) → id ∈ (es.foldl (Ledger.step clean) l).accepted
  | [], _, h, _ => h
  | e :: es, l, h, he => accepted_kept es _ (accepted_step h (he e (by simp))) (fun x hx => he x (by simp [hx]))

/-- **C28.** Suppose a PUBREC was answered with PUBREL and since then no PUBCOMP for the identifier was received and
no connection without the old session was made. Then the identifier is not available, no new operation
gets it, and resuming the session sends the PUBREL again but never a publish with this identifier. -/
theorem C28_only_pubcomp_releases (cfg : Config) (ops : List Op) (b a : Ack) (shown : Bool)
    (before after : List Event)
    (hist : events cfg ops = before ++ .received (.pubRec b) (some (.pubRel a)) shown :: after)
    (hacc : b.reason = .success ∨ b.reason = .noMatchingSubscribers)
    (hkept : ∀ e ∈ after, ¬ EndsRelease cfg.cleanStart b.id e) :
    b.id ∉ (client cfg ops).pool.queue ∧
    (∀ q p s', (client cfg ops).step (.call q) ≠ some (s', .called q (some b.id) p)) ∧
    ∀ c s' resend, (client cfg ops).step (.connAck c) = some (s', .connected c resend) →
      c.sessionPresent = true ∧ cfg.cleanStart = false →
      relFor b.id ∈ resend ∧ ∀ p, .publish p ∈ resend → p.pkid ≠ some b.id := by
  have hm : b.id ∈ (ledger cfg ops).accepted := by
    simp only [ledger, Ledger.after, hist, List.foldl_append, List.foldl_cons]
    refine accepted_kept after _ ?_ hkept
    simp [Ledger.step, Ledger.onReceived, Ledger.accepts, hacc]
  have hi := inv cfg ops
  have hle := hi.le_one b.id
  have h1 := List.count_pos_iff.mpr hm
  refine ⟨?_, ?_, ?_⟩
  · intro hq
    have := List.count_pos_iff.mpr hq
    omega
  · intro q p s' h
    exact (C20_ids_unique cfg ops).2 q b.id p s' h (Ledger.mem_ids (by simp [hm]))
  · intro c s' resend h hres
    obtain ⟨rels, hp, _, rfl⟩ := C26_resumption cfg ops c s' resend h hres
    refine ⟨List.mem_append_right _ (List.mem_map.mpr ⟨_, hp.symm.subset hm, rfl⟩), ?_⟩
    intro p hp hid
    rcases List.mem_append.mp hp with h2 | h2
    · obtain ⟨q, hq, he⟩ := List.mem_map.mp h2
      injection he with he
      subst he
      have : b.id ∈ (ledger cfg ops).publishIds := List.mem_filterMap.mpr ⟨q, hq, hid⟩
      have := List.count_pos_iff.mpr this
      omega
    · obtain ⟨x, _, he⟩ := List.mem_map.mp h2
      simp [relFor] at he

/-- **C28.** The PUBCOMP does release it. -/
theorem C28_pubcomp_releases (cfg : Config) (ops : List Op) (a : Ack)
    (hnet : (client cfg ops).alive = true) (hclients : (client cfg ops).pool.closed = false)
    (h : a.id ∈ (ledger cfg ops).accepted) :
    ∃ s', (client cfg ops).step (.receive (.pubComp a)) = some (s', .received (.pubComp a) none true) ∧
      s'.pool.queue = (client cfg ops).pool.queue ++ [a.id] :=
  (inv cfg ops).pubComp_known hnet hclients h

/-- a QoS 2 exchange with another publish and a reconnect with the session in between -/
example :
    let ops := sendOps (demoPublish .exactlyOnce) ++ [.receive (.pubRec ⟨1, .success, .empty⟩)] ++
      sendOps (demoPublish .atLeastOnce) ++ [.connAck (sessionConnAck true)]
    ∃ before after a, events demo ops =
        before ++ .received (.pubRec ⟨1, .success, .empty⟩) (some (.pubRel a)) true :: after ∧
      (∀ e ∈ after, ¬ EndsRelease demo.cleanStart 1 e) ∧ after.length = 4 ∧ (ledger demo ops).accepted = [1] := by
  refine ⟨[_, _, _], [_, _, _, _], ⟨1, .success, .empty⟩, rfl, ?_, rfl, by decide⟩
  intro e he
  simp only [List.mem_cons, List.not_mem_nil, or_false] at he
  rcases he with rfl | rfl | rfl | rfl <;> simp [EndsRelease, demo, sessionConnAck]

end Mqrstt.Props
