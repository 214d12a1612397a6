import Verif.Proof.NetLink
import Verif.Proof.Positions
import Verif.Spec.Senders
/-!
# The queue and the identifier channel when the clients are gone
-/

namespace Mqrstt
open Mqrstt.Spec Mqrstt.Props

/-! ## whether there are clients -/

namespace State

theorem makePkid_closed (s : State) (id : UInt16) : (s.makePkidAvailable id).1.pool.closed = s.pool.closed := by
  simp only [makePkidAvailable, Pool.markAvailable]
  repeat' split
  all_goals rfl

theorem removePub_pool (s : State) (id : UInt16) : (s.removeOutgoingPub id).1.pool = s.pool := by
  simp only [removeOutgoingPub]
  repeat' split
  all_goals rfl

theorem addPub_pool (s : State) (id : UInt16) (p : Publish) : (s.addOutgoingPub id p).1.pool = s.pool := by
  simp only [addOutgoingPub]
  repeat' split
  all_goals rfl

end State

namespace Handler

theorem release_pool (s : State) (id : UInt16) : (release s id).1.pool.closed = s.pool.closed := by
  simp only [release]
  have := s.makePkid_closed id
  split <;> simpa using this

theorem incoming_closed (h : Handler) (p : Packet) : (h.incoming p).1.state.pool.closed = h.state.pool.closed := by
  obtain ⟨s, c⟩ := h
  simp only [incoming]
  have shown_fst : ∀ r : State × Except HFail (Option Packet), (shown r).1 = r.1 := by
    rintro ⟨s, _ | _⟩ <;> rfl
  cases p <;> simp only [incomingState, shown_fst] <;> try rfl
  case publish p =>
    simp only [incomingPublish, State.addIncomingPub]
    repeat' split
    all_goals rfl
  case pubAck a =>
    have := s.removePub_pool a.id
    simp only [incomingPubAck]
    split <;> simp [release_pool, this]
  case pubRec a =>
    have := s.removePub_pool a.id
    simp only [incomingPubRec]
    split
    · simp [this]
    · split <;> simp [State.addOutgoingRel, this]
    · simp [this]
  case pubComp a =>
    simp only [incomingPubComp, State.removeOutgoingRel]
    by_cases hb : (IdSet.remove a.id s.rel).2 = true <;> simp [hb, release_pool]
  case subAck a =>
    simp only [incomingSubAck, State.removeOutgoingSub]
    by_cases hb : (IdSet.remove a.id s.sub).2 = true <;> simp [hb, release_pool]
  case unsubAck a =>
    simp only [incomingUnsubAck, State.removeOutgoingUnsub]
    by_cases hb : (IdSet.remove a.id s.unsub).2 = true <;> simp [hb, release_pool]

theorem outgoing_closed (h : Handler) (p : Packet) : (h.outgoing p).1.state.pool = h.state.pool := by
  obtain ⟨s, c⟩ := h
  cases p <;> simp only [outgoing, outgoingState] <;> try rfl
  case publish p =>
    simp only [outgoingPublish]
    repeat' split
    all_goals first | rfl | exact State.addPub_pool _ _ _

theorem freeAll_pool : ∀ (ids : List UInt16) (s : State), (freeAll s ids).1.pool.closed = s.pool.closed
  | [], _ => rfl
  | id :: ids, s => by
    have h := s.makePkid_closed id
    unfold freeAll
    split
    · rename_i e; rw [e] at h; exact h
    · rename_i e; rw [e] at h; exact (freeAll_pool ids _).trans h

theorem reset_pool (s : State) (b : Bool) : (s.reset b).1.pool = s.pool := by
  simp only [State.reset]
  repeat' split
  all_goals rfl

theorem connAck_closed (h : Handler) (c : ConnAck) : (h.connAck c).1.state.pool.closed = h.state.pool.closed := by
  unfold connAck
  split
  · have h1 := reset_pool h.state (c.sessionPresent && !h.cleanStart)
    split
    · rename_i e; rw [e] at h1; simpa using congrArg Pool.closed h1
    · rename_i s fr re e
      rw [e] at h1
      have h2 := freeAll_pool fr s
      split <;> (rename_i e2; rw [e2] at h2; exact h2.trans (congrArg Pool.closed h1))
  · rfl

end Handler

theorem Sys.step_closed {s s' : Sys} {op : Op} {e : Event} (h : s.step op = some (s', e)) :
    (s'.pool.closed = true ↔ s.pool.closed = true ∨ e = .clientsDropped) := by
  cases op with
  | call q =>
    rcases call_cases h with ⟨t, id, ht, hw⟩ | ⟨rfl, rfl, _⟩
    · have h1 : t.pool.closed = s.pool.closed := by
        cases ht with
        | none _ ht => subst ht; rfl
        | some id pool _ hp ht =>
          subst ht
          simp only [Pool.take] at hp
          split at hp
          · simp at hp
          · simp only [Option.some.injEq, Prod.mk.injEq] at hp
            obtain ⟨-, rfl⟩ := hp; rfl
      obtain ⟨p, -, ⟨rfl, rfl, _⟩ | ⟨rfl, x, rfl, _⟩⟩ := callWith_cases hw
      · simpa [Sys.pool] using congrArg (· = true) h1
      · simp [← h1]
    · simp
  | submit k =>
    simp only [Sys.step] at h
    repeat' split at h
    all_goals first | (simp at h; done) | (simp only [Option.some.injEq, Prod.mk.injEq] at h; obtain ⟨rfl, rfl⟩ := h; simp [Sys.pool])
  | abandon k =>
    simp only [Sys.step] at h
    repeat' split at h
    all_goals first | (simp at h; done) | (simp only [Option.some.injEq, Prod.mk.injEq] at h; obtain ⟨rfl, rfl⟩ := h; simp [Sys.pool])
  | dropClients =>
    simp only [Sys.step, Option.some.injEq, Prod.mk.injEq] at h
    obtain ⟨rfl, rfl⟩ := h
    simp [Sys.pool, Sys.withPool]
  | dropNetwork =>
    simp only [Sys.step] at h
    repeat' split at h
    all_goals first | (simp at h; done) | (simp only [Option.some.injEq, Prod.mk.injEq] at h; obtain ⟨rfl, rfl⟩ := h; simp [Sys.pool, Sys.die])
  | write ok =>
    simp only [Sys.step] at h
    repeat' split at h
    all_goals first
      | (simp at h; done)
      | (rename_i he
         have hc := congrArg (fun r => r.1.state.pool) he
         simp only [Handler.outgoing_closed] at hc
         simp only [Option.some.injEq, Prod.mk.injEq] at h; obtain ⟨rfl, rfl⟩ := h; simp [Sys.pool, Sys.die, ← hc])
      | (simp only [Option.some.injEq, Prod.mk.injEq] at h; obtain ⟨rfl, rfl⟩ := h; simp [Sys.pool])
  | receive p =>
    have hc := Handler.incoming_closed s.handler p
    simp only [Sys.step] at h
    repeat' split at h
    all_goals first
      | (simp at h; done)
      | (rename_i he; rw [he] at hc
         simp only [Option.some.injEq, Prod.mk.injEq] at h; obtain ⟨rfl, rfl⟩ := h; simpa [Sys.pool, Sys.die] using congrArg (· = true) hc)
  | connAck c =>
    have hc := Handler.connAck_closed s.handler c
    simp only [Sys.step] at h
    repeat' split at h
    all_goals first
      | (simp at h; done)
      | (rename_i he; rw [he] at hc
         simp only [Option.some.injEq, Prod.mk.injEq] at h; obtain ⟨rfl, rfl⟩ := h; simpa [Sys.pool, Sys.die] using congrArg (· = true) hc)

theorem mem_shown {p : Packet} {b : Bool} {e : Event} : Obs.user e ∉ shownObs p b := by cases b <;> simp [shownObs]
theorem mem_wrotes {T : Times} {ps : List Packet} {e : Event} : Obs.user e ∉ wrotes T ps := by simp [wrotes]

theorem VStep.closed {fl v o w} (h : VStep fl v o w) :
    w.sys.pool.closed = true ↔ v.sys.pool.closed = true ∨ .user .clientsDropped ∈ o := by
  have die : ∀ s : Sys, s.die.pool = s.pool := fun _ => rfl
  cases h
  case client hs => rw [Sys.step_closed hs, List.mem_singleton, Obs.user.injEq, eq_comm (a := Event.clientsDropped)]
  case drop hs => rw [Sys.step_closed hs, List.mem_singleton, Obs.user.injEq, eq_comm (a := Event.clientsDropped)]
  case accepted hs => have := Sys.step_closed hs; simpa [mem_shown, mem_wrotes] using this
  case acceptedFail hs => have := Sys.step_closed hs; simpa [mem_shown, View.finish] using this
  case refusedPacket hs => have := Sys.step_closed hs; simpa [View.finish] using this
  case readPanic hs => have := Sys.step_closed hs; simpa [View.finish] using this
  case outFail hs => have := Sys.step_closed hs; simpa [View.finish] using this
  case outOk hs _ => have := Sys.step_closed hs; simpa using this
  case outDisc hs _ => have := Sys.step_closed hs; simpa [View.finish] using this
  case outErr hs => have := Sys.step_closed hs; simpa [View.finish] using this
  case outPanic hs => have := Sys.step_closed hs; simpa [View.finish] using this
  case connectFailed ho => rcases ho with rfl | ⟨_, _, _, rfl⟩ <;> simp
  case established hs _ _ => have := Sys.step_closed hs; simpa [mem_wrotes] using this
  case establishFail hs _ _ => have := Sys.step_closed hs; simpa [mem_wrotes] using this
  case establishErr hs => have := Sys.step_closed hs; simpa using this
  case establishPanic hs => have := Sys.step_closed hs; simpa using this
  all_goals simp [View.finish, die]

theorem VRun.closed {fl o t tr v} (h : VRun fl (View.init o t) tr v) : v.sys.pool.closed = true ↔ ClientsGone tr := by
  refine h.induct (fun tr v => v.sys.pool.closed = true ↔ ClientsGone tr) ?_ ?_
  · simp only [ClientsGone, List.not_mem_nil, iff_false]
    exact Bool.false_ne_true
  · intro tr v o w _ ih hs
    rw [hs.closed, ih, ClientsGone, ClientsGone, List.mem_append]

/-! ## what has been taken from the queue -/

theorem Sys.step_write_queue {s s' : Sys} {ok : Bool} {e : Event} (h : s.step (.write ok) = some (s', e)) :
    ∃ p, s.queue = p :: s'.queue := by
  simp only [Sys.step] at h
  split at h
  · split at h
    · simp at h
    · rename_i p rest hq
      refine ⟨p, ?_⟩
      rw [hq]
      repeat' split at h
      all_goals (simp only [Option.some.injEq, Prod.mk.injEq] at h; obtain ⟨rfl, -⟩ := h; rfl)
  · simp at h

theorem Sys.step_queue {s s' : Sys} {op : Op} {e : Event} (h : s.step op = some (s', e)) (hw : ∀ ok, op ≠ .write ok) :
    s'.queue = s.queue ++ submittedPackets [e] := by
  cases op with
  | write ok => exact absurd rfl (hw ok)
  | call q =>
    rcases call_cases h with ⟨t, id, ht, hw⟩ | ⟨rfl, rfl, _⟩
    · have h1 : t.queue = s.queue := by cases ht <;> (subst_vars; rfl)
      obtain ⟨p, -, ⟨rfl, rfl, _⟩ | ⟨rfl, x, rfl, _⟩⟩ := callWith_cases hw <;> simp [submittedPackets, h1]
    · simp [submittedPackets]
  | submit k =>
    simp only [Sys.step] at h
    repeat' split at h
    all_goals first
      | (simp at h; done)
      | (simp only [Option.some.injEq, Prod.mk.injEq] at h; obtain ⟨rfl, rfl⟩ := h; simp [submittedPackets])
  | abandon k =>
    simp only [Sys.step] at h
    repeat' split at h
    all_goals first
      | (simp at h; done)
      | (simp only [Option.some.injEq, Prod.mk.injEq] at h; obtain ⟨rfl, rfl⟩ := h; simp [submittedPackets])
  | dropClients =>
    simp only [Sys.step, Option.some.injEq, Prod.mk.injEq] at h
    obtain ⟨rfl, rfl⟩ := h
    simp [submittedPackets, Sys.withPool]
  | _ =>
    simp only [Sys.step] at h
    repeat' split at h
    all_goals first
      | (simp at h; done)
      | (simp only [Option.some.injEq, Prod.mk.injEq] at h; obtain ⟨rfl, rfl⟩ := h; simp [submittedPackets, Sys.die])

theorem failedRuns_append (a b : List Obs) : failedRuns (a ++ b) = failedRuns a + failedRuns b := by
  simp [failedRuns]
theorem queuedIn_append (a b : List Obs) : queuedIn (a ++ b) = queuedIn a ++ queuedIn b := by
  simp [queuedIn, submittedIn_append]

/-- nothing is taken -/
theorem keep_count {v w : View} {o : List Obs} (hq : w.sys.queue = v.sys.queue ++ submittedIn o) (hf : freshIn o = []) :
    ∃ lost, lost ≤ failedRuns o ∧ (queuedIn o).length + (v.sys.queue.filter isFresh).length =
      (freshIn o).length + (w.sys.queue.filter isFresh).length + lost :=
  ⟨0, Nat.zero_le _, by rw [hq, hf]; simp [queuedIn]; omega⟩

theorem VStep.count {fl v o w} (h : VStep fl v o w) :
    ∃ lost, lost ≤ failedRuns o ∧ (queuedIn o).length + (v.sys.queue.filter isFresh).length =
      (freshIn o).length + (w.sys.queue.filter isFresh).length + lost := by
  cases h
  case client hc hs =>
    have := client_user (Sys.step_ofClient hc hs)
    refine keep_count ?_ this.2.2
    rw [this.2.1]
    exact Sys.step_queue hs (by rintro ok rfl; simp [Op.ofClient] at hc)
  case drop hs =>
    obtain ⟨rfl, -, -⟩ := Sys.step_drop hs
    exact keep_count (by simpa [submittedIn, submittedPackets, View.finish] using Sys.step_queue hs (by simp)) rfl
  case accepted hs =>
    refine keep_count ?_ ?_
    · rw [submittedIn_append, submittedIn_shown, submittedIn_wrotes]
      simpa [submittedPackets, submittedIn, View.finish] using Sys.step_queue hs (by simp)
    · rw [freshIn_append, freshIn_shown, freshIn_wrotes, answer_filter (Sys.step_answer hs)]; rfl
  case acceptedFail hs =>
    refine keep_count ?_ ?_
    · rw [submittedIn_append, submittedIn_shown]
      simpa [submittedPackets, submittedIn, View.finish] using Sys.step_queue hs (by simp)
    · rw [freshIn_append, freshIn_shown]; rfl
  case refusedPacket hs =>
    exact keep_count (by simpa [submittedIn, submittedPackets, View.finish] using Sys.step_queue hs (by simp)) rfl
  case readPanic hs =>
    exact keep_count (by simpa [submittedIn, submittedPackets, View.finish] using Sys.step_queue hs (by simp)) rfl
  case outFail hs =>
    obtain ⟨p, hq⟩ := Sys.step_write_queue hs
    refine ⟨([p].filter isFresh).length, ?_, ?_⟩
    · exact Nat.le_trans (List.length_filter_le _ _) (by simp [failedRuns])
    · rw [hq, show ∀ l : List Packet, p :: l = [p] ++ l from fun _ => rfl, List.filter_append, List.length_append]
      simp [queuedIn, submittedIn, freshIn, writtenIn, View.finish]; omega
  case outOk hs hd =>
    obtain ⟨p', rest, hq, ⟨-, h' | ⟨_, h'⟩ | h'⟩ | ⟨h', -⟩⟩ := Sys.step_write_event hs <;> cases h'
    obtain ⟨p'', hq'⟩ := Sys.step_write_queue hs
    rw [hq] at hq'
    obtain ⟨rfl, rfl⟩ := List.cons.inj hq'
    refine ⟨0, Nat.zero_le _, ?_⟩
    rw [hq, show ∀ (p' : Packet) (l : List Packet), p' :: l = [p'] ++ l from fun _ _ => rfl, List.filter_append,
      List.length_append]
    simp [queuedIn, submittedIn, freshIn, writtenIn]
  case outDisc hs hd =>
    obtain ⟨p', rest, hq, ⟨-, h' | ⟨_, h'⟩ | h'⟩ | ⟨h', -⟩⟩ := Sys.step_write_event hs <;> cases h'
    obtain ⟨p'', hq'⟩ := Sys.step_write_queue hs
    rw [hq] at hq'
    obtain ⟨rfl, rfl⟩ := List.cons.inj hq'
    refine ⟨0, Nat.zero_le _, ?_⟩
    rw [hq, show ∀ (p' : Packet) (l : List Packet), p' :: l = [p'] ++ l from fun _ _ => rfl, List.filter_append,
      List.length_append]
    simp [queuedIn, submittedIn, freshIn, writtenIn, View.finish]
  case outErr hs =>
    obtain ⟨p', rest, hq, ⟨-, h' | ⟨_, h'⟩ | h'⟩ | ⟨h', -⟩⟩ := Sys.step_write_event hs <;> cases h'
    obtain ⟨p'', hq'⟩ := Sys.step_write_queue hs
    rw [hq] at hq'
    obtain ⟨rfl, rfl⟩ := List.cons.inj hq'
    refine ⟨0, Nat.zero_le _, ?_⟩
    rw [hq, show ∀ (p' : Packet) (l : List Packet), p' :: l = [p'] ++ l from fun _ _ => rfl, List.filter_append,
      List.length_append]
    simp [queuedIn, submittedIn, freshIn, writtenIn, View.finish]
  case outPanic hq hs =>
    obtain ⟨p'', hq'⟩ := Sys.step_write_queue hs
    rw [hq] at hq'
    obtain ⟨rfl, rfl⟩ := List.cons.inj hq'
    refine ⟨0, Nat.zero_le _, ?_⟩
    rw [hq, show ∀ (p' : Packet) (l : List Packet), p' :: l = [p'] ++ l from fun _ _ => rfl, List.filter_append,
      List.length_append]
    simp [queuedIn, submittedIn, freshIn, writtenIn, View.finish]
  case connectFailed ho =>
    rcases ho with rfl | ⟨_, _, _, rfl⟩ <;> exact keep_count (by simp [submittedIn]) rfl
  case established hs hw _ =>
    refine keep_count ?_ ?_
    · rw [submittedIn_append, submittedIn_append, submittedIn_wrotes]
      simpa [submittedPackets, submittedIn] using Sys.step_queue hs (by simp)
    · rw [freshIn_append, freshIn_append, freshIn_wrotes, resent_filter (Sys.step_connected_resent hs) hw]; rfl
  case establishFail hs hw _ =>
    refine keep_count ?_ ?_
    · rw [submittedIn_append, submittedIn_append, submittedIn_wrotes]
      simpa [submittedPackets, submittedIn] using Sys.step_queue hs (by simp)
    · rw [freshIn_append, freshIn_append, freshIn_wrotes, resent_filter (Sys.step_connected_resent hs) hw]; rfl
  case establishErr hs =>
    exact keep_count (by simpa [submittedIn, submittedPackets, View.finish] using Sys.step_queue hs (by simp)) rfl
  case establishPanic hs =>
    exact keep_count (by simpa [submittedIn, submittedPackets, View.finish] using Sys.step_queue hs (by simp)) rfl
  all_goals exact keep_count (by simp [submittedIn, View.finish, Sys.die]) rfl

theorem VRun.count {fl o t tr v} (h : VRun fl (View.init o t) tr v) :
    ∃ lost, lost ≤ failedRuns tr ∧ (queuedIn tr).length = (freshIn tr).length + (v.sys.queue.filter isFresh).length + lost := by
  refine h.induct (fun tr v => ∃ lost, lost ≤ failedRuns tr ∧
    (queuedIn tr).length = (freshIn tr).length + (v.sys.queue.filter isFresh).length + lost)
    ⟨0, Nat.zero_le _, rfl⟩ ?_
  rintro tr v o w - ⟨l, hl, e⟩ hs
  obtain ⟨l', hl', e'⟩ := hs.count
  refine ⟨l + l', by rw [failedRuns_append]; omega, ?_⟩
  rw [queuedIn_append, freshIn_append, List.length_append, List.length_append]
  omega

/-! ## acknowledgements without clients -/

theorem Handler.incoming_completion {h : Handler} {p : Packet} (hc : h.state.pool.closed = true) (hp : isCompletion p = true)
    {r : Option Packet × Bool} : (h.incoming p).2 ≠ .ok r := by
  obtain ⟨s, c⟩ := h
  cases p <;> simp only [isCompletion, Bool.false_eq_true] at hp
  case pubAck a =>
    have h1 := s.removePub_pool a.id
    simp only [incoming, incomingState, incomingPubAck]
    split
    · simp [shown]
    · rw [release_closed (by rw [h1]; exact hc)]; simp [shown]
    · simp [shown]
  case pubComp a =>
    simp only [incoming, incomingState, incomingPubComp, State.removeOutgoingRel]
    by_cases hb : (IdSet.remove a.id s.rel).2 = true
    · simp only [hb, if_true]; rw [release_closed (by exact hc)]; simp [shown]
    · simp [hb, shown]
  case subAck a =>
    simp only [incoming, incomingState, incomingSubAck, State.removeOutgoingSub]
    by_cases hb : (IdSet.remove a.id s.sub).2 = true
    · simp only [hb, if_true]; rw [release_closed (by exact hc)]; simp [shown]
    · simp [hb, shown]
  case unsubAck a =>
    simp only [incoming, incomingState, incomingUnsubAck, State.removeOutgoingUnsub]
    by_cases hb : (IdSet.remove a.id s.unsub).2 = true
    · simp only [hb, if_true]; rw [release_closed (by exact hc)]; simp [shown]
    · simp [hb, shown]

theorem Sys.step_completion {s s' : Sys} {p : Packet} {r : Option Packet} {b : Bool} (hc : s.pool.closed = true)
    (hp : isCompletion p = true) (h : s.step (.receive p) = some (s', .received p r b)) : False := by
  have := fun r => Handler.incoming_completion (r := r) hc hp
  simp only [Sys.step] at h
  repeat' split at h
  all_goals first
    | (simp at h; done)
    | (rename_i he; rw [he] at this; simp at this)

end Mqrstt
