import Verif.Proof.SessionFacts
import Verif.Spec.Receiver
/-!
# Helper lemmas: the set of incoming QoS 2 identifiers
-/

namespace Mqrstt
open Spec

/-- the state before a given event of a history -/
theorem Sys.run_split {e : Event} {h3 : List Event} : ∀ (ops : List Op) (s : Sys) (h1 : List Event), (s.run ops).2 = h1 ++ e :: h3 →
    ∃ ops1 op s' ops2, (s.run ops1).2 = h1 ∧ (s.run ops1).1.step op = some (s', e) ∧ (s'.run ops2).2 = h3 ∧
      ops = ops1 ++ op :: ops2
  | [], s, h1, h => by simp [Sys.run] at h
  | op :: ops, s, h1, h => by
    unfold Sys.run at h
    cases hs : s.step op with
    | none =>
      simp only [hs] at h
      obtain ⟨ops1, op', s', ops2, a, b, c, rfl⟩ := Sys.run_split ops s h1 h
      refine ⟨op :: ops1, op', s', ops2, ?_, ?_, c, rfl⟩
      · unfold Sys.run; simp only [hs, a]
      · unfold Sys.run; simp only [hs, b]
    | some x =>
      obtain ⟨s', e'⟩ := x
      simp only [hs] at h
      cases h1 with
      | nil =>
        simp only [List.nil_append, List.cons.injEq] at h
        obtain ⟨rfl, h⟩ := h
        exact ⟨[], op, s', ops, rfl, hs, h, rfl⟩
      | cons y ys =>
        simp only [List.cons_append, List.cons.injEq] at h
        obtain ⟨rfl, h⟩ := h
        obtain ⟨ops1, op', s'', ops2, a, b, c, rfl⟩ := Sys.run_split ops s' ys h
        refine ⟨op :: ops1, op', s'', ops2, ?_, ?_, c, rfl⟩
        · unfold Sys.run; simp only [hs, a]
        · unfold Sys.run; simp only [hs, b]

theorem open_nil {id : UInt16} : ¬ Open id [] := by
  rintro ⟨h1, e, h2, b, h, _⟩
  simp at h

theorem open_snoc {id : UInt16} {h : List Event} {e : Event} :
    Open id (h ++ [e]) ↔ (∃ b, Arrival id b e) ∨ (Open id h ∧ ¬ Released id e ∧ ¬ Reconnected e) := by
  constructor
  · rintro ⟨h1, x, h2, b, hh, ha, hc⟩
    rcases List.eq_nil_or_concat h2 with rfl | ⟨h2', y, rfl⟩
    · have := List.append_inj' hh rfl
      simp only [List.cons.injEq, and_true] at this
      obtain ⟨_, rfl⟩ := this
      exact Or.inl ⟨b, ha⟩
    · rw [List.concat_eq_append] at hh hc
      have hh' : h ++ [e] = (h1 ++ x :: h2') ++ [y] := by simp [hh]
      have := List.append_inj' hh' rfl
      simp only [List.cons.injEq, and_true] at this
      obtain ⟨rfl, rfl⟩ := this
      exact Or.inr ⟨⟨h1, x, h2', b, rfl, ha, fun z hz => hc z (by simp [hz])⟩, hc e (by simp)⟩
  · rintro (⟨b, ha⟩ | ⟨⟨h1, x, h2, b, rfl, ha, hc⟩, he⟩)
    · exact ⟨h, e, [], b, by simp, ha, by simp⟩
    · refine ⟨h1, x, h2 ++ [e], b, by simp, ha, ?_⟩
      intro z hz
      rcases List.mem_append.mp hz with hz | hz
      · exact hc z hz
      · rw [List.mem_singleton.mp hz]; exact he

theorem open_of_append {id : UInt16} : ∀ (es : List Event) {h : List Event}, (∀ e ∈ es, ∀ b, ¬ Arrival id b e) →
    Open id (h ++ es) → Open id h
  | [], h, _, ho => by simpa using ho
  | e :: es, h, hno, ho => by
    have : Open id ((h ++ [e]) ++ es) := by simpa using ho
    rcases open_snoc.mp (open_of_append es (fun x hx => hno x (by simp [hx])) this) with ⟨b, hb⟩ | hb
    · exact absurd hb (hno e (by simp) b)
    · exact hb.1

/-- the set of identifiers is sorted and says which messages are open -/
structure RInv (s : Sys) (h : List Event) : Prop where
  sorted : s.handler.state.incoming.Pairwise (· < ·)
  iff : s.alive = true → ∀ id, id ∈ s.handler.state.incoming ↔ Open id h

theorem IdSet.mem_remove {id a : UInt16} {l : List UInt16} (h : l.Pairwise (· < ·)) :
    a ∈ (IdSet.remove id l).1 ↔ a ∈ l ∧ a ≠ id := by
  have hn : l.Nodup := List.nodup_iff_pairwise_ne.mpr (h.imp fun hab hx => by subst hx; exact absurd hab (UInt16.lt_irrefl _))
  simp only [IdSet.remove]
  rw [List.Nodup.mem_erase_iff hn, and_comm]

theorem IdSet.remove_sorted {id : UInt16} {l : List UInt16} (h : l.Pairwise (· < ·)) :
    (IdSet.remove id l).1.Pairwise (· < ·) := by
  exact h.sublist List.erase_sublist

/-- nothing but publishes and PUBRELs touches the set -/
theorem State.removeOutgoingPub_incoming (s : State) (id : UInt16) :
    (s.removeOutgoingPub id).1.incoming = s.incoming := by
  rcases State.removeOutgoingPub_eq s id with ⟨_, h⟩ | ⟨i, _, _, h⟩ | ⟨i, p, _, _, h⟩ <;> rw [h]

theorem State.makePkidAvailable_incoming (s : State) (id : UInt16) :
    (s.makePkidAvailable id).1.incoming = s.incoming := by
  simp only [State.makePkidAvailable]

theorem Handler.release_incoming (s : State) (id : UInt16) :
    (Handler.release s id).1.incoming = s.incoming := by
  have h := State.makePkidAvailable_incoming s id
  unfold Handler.release
  cases e : s.makePkidAvailable id with
  | mk st r =>
    rw [e] at h
    cases r <;> exact h

theorem Handler.shown_fst (r : State × Except HFail (Option Packet)) : (Handler.shown r).1 = r.1 := by
  obtain ⟨s, r⟩ := r
  cases r <;> rfl

theorem Handler.freeAll_incoming : ∀ (ids : List UInt16) (s : State), (Handler.freeAll s ids).1.incoming = s.incoming
  | [], s => rfl
  | id :: ids, s => by
    have h := State.makePkidAvailable_incoming s id
    unfold Handler.freeAll
    cases e : s.makePkidAvailable id with
    | mk st r =>
      rw [e] at h
      cases r with
      | error x => exact h
      | ok x => rw [← h]; exact Handler.freeAll_incoming ids st

theorem Handler.connAck_incoming (h : Handler) (c : ConnAck) :
    (h.connAck c).1.state.incoming = [] ∨
    ((h.connAck c).1.state.incoming = h.state.incoming ∧ ((h.connAck c).2 = .ok none ∨ (h.connAck c).2 = .error .panic)) := by
  unfold Handler.connAck
  split
  · cases e : h.state.reset (c.sessionPresent && !h.cleanStart) with
    | mk st r =>
      unfold State.reset at e
      have hst : (∃ f, r = .ok f) → st.incoming = [] := by
        rintro ⟨f, rfl⟩
        split at e
        · split at e <;> simp at e
          rw [← e.1]
        · simp only [Prod.mk.injEq] at e; rw [← e.1]
      cases r with
      | error x =>
        right
        split at e
        · split at e <;> simp at e
          obtain ⟨rfl, rfl⟩ := e
          exact ⟨rfl, .inr rfl⟩
        · simp at e
      | ok f =>
        left
        have h1 := hst ⟨f, rfl⟩
        have h2 := Handler.freeAll_incoming f.1 st
        cases e2 : Handler.freeAll st f.1 with
        | mk st2 r2 =>
          rw [e2] at h2
          simp only [e2]
          simp only [h1] at h2
          cases r2 <;> exact h2
  · exact Or.inr ⟨rfl, .inl rfl⟩

/-- the effect of a received packet on the set -/
theorem Handler.incomingState_incoming (st : State) (p : Packet) :
    (Handler.incomingState st p).1.incoming =
      match p with
      | .publish q => match q.qos, q.pkid with
        | .exactlyOnce, some id => (IdSet.insert id st.incoming).1
        | _, _ => st.incoming
      | .pubRel a => (IdSet.remove a.id st.incoming).1
      | _ => st.incoming := by
  cases p with
  | publish q =>
    simp only [Handler.incomingState, Handler.incomingPublish]
    cases hq : q.qos <;> cases hk : q.pkid <;> simp [State.addIncomingPub]
  | pubAck a =>
    simp only [Handler.incomingState, Handler.shown_fst, Handler.incomingPubAck]
    have h := State.removeOutgoingPub_incoming st a.id
    cases e : st.removeOutgoingPub a.id with
    | mk st2 r =>
      rw [e] at h
      rcases r with x | _ | x
      · exact h
      · exact h
      · simp only [Handler.release_incoming]; exact h
  | pubRec a =>
    simp only [Handler.incomingState, Handler.shown_fst, Handler.incomingPubRec]
    have h := State.removeOutgoingPub_incoming st a.id
    cases e : st.removeOutgoingPub a.id with
    | mk st2 r =>
      rw [e] at h
      rcases r with x | _ | x
      · exact h
      · exact h
      · simp only; split
        · exact h
        · exact h
  | pubRel a => simp only [Handler.incomingState, Handler.shown_fst, Handler.incomingPubRel, State.removeIncomingPub]
  | pubComp a =>
    simp only [Handler.incomingState, Handler.shown_fst, Handler.incomingPubComp]
    have h : (st.removeOutgoingRel a.id).1.incoming = st.incoming := rfl
    cases e : st.removeOutgoingRel a.id with
    | mk st2 was =>
      rw [e] at h
      cases was
      · exact h
      · simp only [if_true, Handler.release_incoming]; exact h
  | subAck a =>
    simp only [Handler.incomingState, Handler.shown_fst, Handler.incomingSubAck]
    have h : (st.removeOutgoingSub a.id).1.incoming = st.incoming := rfl
    cases e : st.removeOutgoingSub a.id with
    | mk st2 was =>
      rw [e] at h
      cases was
      · exact h
      · simp only [if_true, Handler.release_incoming]; exact h
  | unsubAck a =>
    simp only [Handler.incomingState, Handler.shown_fst, Handler.incomingUnsubAck]
    have h : (st.removeOutgoingUnsub a.id).1.incoming = st.incoming := rfl
    cases e : st.removeOutgoingUnsub a.id with
    | mk st2 was =>
      rw [e] at h
      cases was
      · exact h
      · simp only [if_true, Handler.release_incoming]; exact h
  | _ => rfl

theorem Handler.outgoingState_incoming (st : State) (p : Packet) :
    (Handler.outgoingState st p).1.incoming = st.incoming := by
  cases p with
  | publish q =>
    simp only [Handler.outgoingState, Handler.outgoingPublish]
    split
    · rfl
    · split
      · rfl
      · simp only [State.addOutgoingPub]
        split
        · rfl
        · split <;> rfl
  | subscribe q => simp only [Handler.outgoingState, State.addOutgoingSub]
  | unsubscribe q => simp only [Handler.outgoingState, State.addOutgoingUnsub]
  | _ => rfl

/-- an event that leaves the set of open messages alone -/
theorem open_same {id : UInt16} {h : List Event} {e : Event} (h1 : ∀ b, ¬ Arrival id b e) (h2 : ¬ Released id e)
    (h3 : ¬ Reconnected e) : Open id (h ++ [e]) ↔ Open id h := by
  rw [open_snoc]
  constructor
  · rintro (⟨b, hb⟩ | hb)
    · exact absurd hb (h1 b)
    · exact hb.1
  · intro ho; exact Or.inr ⟨ho, h2, h3⟩

theorem Sys.step_received {s s' : Sys} {op : Op} {p : Packet} {r : Option Packet} {b : Bool}
    (h : s.step op = some (s', .received p r b)) :
    op = .receive p ∧ s.alive = true ∧ s'.handler.state = (Handler.incomingState s.handler.state p).1 ∧
      (Handler.incomingState s.handler.state p).2 = .ok (r, b) ∧ s' = { s with handler := s'.handler } := by
  cases op with
  | receive q =>
    cases ha : s.alive with
    | false => simp [Sys.step, ha] at h
    | true =>
      rw [Sys.step_receive ha] at h
      cases e : Handler.incomingState s.handler.state q with
      | mk st res =>
        rw [e] at h
        rcases res with f | ⟨reply, sh⟩
        · cases f <;> simp at h
        · simp only [Option.some.injEq, Prod.mk.injEq, Event.received.injEq] at h
          obtain ⟨h1, rfl, rfl, rfl⟩ := h
          subst h1
          rw [e]
          exact ⟨rfl, rfl, rfl, rfl, by rw [← ha]⟩
  | call q =>
    simp only [Sys.step, Sys.call, Sys.callWith] at h
    repeat' split at h
    all_goals simp at h
  | submit k =>
    simp only [Sys.step] at h
    repeat' split at h
    all_goals simp at h
  | abandon k =>
    simp only [Sys.step] at h
    repeat' split at h
    all_goals simp at h
  | dropClients => simp [Sys.step] at h
  | dropNetwork =>
    simp only [Sys.step] at h
    split at h <;> simp at h
  | write ok =>
    simp only [Sys.step] at h
    repeat' split at h
    all_goals simp at h
  | connAck c =>
    simp only [Sys.step] at h
    repeat' split at h
    all_goals simp at h

theorem RInv.keep {s s' : Sys} {h : List Event} {e : Event} (hi : RInv s h)
    (hst : s'.handler.state.incoming = s.handler.state.incoming) (hal : s'.alive = true → s.alive = true)
    (h1 : ∀ id b, ¬ Arrival id b e) (h2 : ∀ id, ¬ Released id e) (h3 : ¬ Reconnected e) : RInv s' (h ++ [e]) :=
  ⟨hst ▸ hi.sorted, fun ha id => by rw [hst, open_same (h1 id) (h2 id) h3]; exact hi.iff (hal ha) id⟩

theorem RInv.step {s s' : Sys} {h : List Event} {op : Op} {e : Event} (hi : RInv s h)
    (hs : s.step op = some (s', e)) : RInv s' (h ++ [e]) := by
  cases op with
  | call q =>
    simp only [Sys.step, Sys.call, Sys.callWith] at hs
    repeat' split at hs
    all_goals
      first
      | (simp at hs; done)
      | (simp only [Option.some.injEq, Prod.mk.injEq] at hs
         obtain ⟨rfl, rfl⟩ := hs
         exact hi.keep rfl (fun x => x) (fun _ _ x => x) (fun _ x => x) (fun x => x))
  | submit k =>
    simp only [Sys.step] at hs
    repeat' split at hs
    all_goals
      first
      | (simp at hs; done)
      | (simp only [Option.some.injEq, Prod.mk.injEq] at hs
         obtain ⟨rfl, rfl⟩ := hs
         exact hi.keep rfl (fun x => x) (fun _ _ x => x) (fun _ x => x) (fun x => x))
  | abandon k =>
    simp only [Sys.step] at hs
    repeat' split at hs
    all_goals
      first
      | (simp at hs; done)
      | (simp only [Option.some.injEq, Prod.mk.injEq] at hs
         obtain ⟨rfl, rfl⟩ := hs
         exact hi.keep rfl (fun x => x) (fun _ _ x => x) (fun _ x => x) (fun x => x))
  | dropClients =>
    simp only [Sys.step, Option.some.injEq, Prod.mk.injEq] at hs
    obtain ⟨rfl, rfl⟩ := hs
    exact hi.keep rfl (fun x => x) (fun _ _ x => x) (fun _ x => x) (fun x => x)
  | dropNetwork =>
    simp only [Sys.step] at hs
    split at hs
    · simp only [Option.some.injEq, Prod.mk.injEq] at hs
      obtain ⟨rfl, rfl⟩ := hs
      exact hi.keep rfl (by simp [Sys.die]) (fun _ _ x => x) (fun _ x => x) (fun x => x)
    · simp at hs
  | write ok =>
    simp only [Sys.step] at hs
    cases ha : s.alive with
    | false => simp [ha] at hs
    | true =>
      cases hq : s.queue with
      | nil => simp [ha, hq] at hs
      | cons p rest =>
        simp only [ha, if_true, hq, Handler.outgoing] at hs
        have hin := Handler.outgoingState_incoming s.handler.state p
        cases eo : Handler.outgoingState s.handler.state p with
        | mk st res =>
          simp only [eo] at hs hin
          cases ok with
          | false =>
            simp only [Bool.false_eq_true, if_false, Option.some.injEq, Prod.mk.injEq] at hs
            obtain ⟨rfl, rfl⟩ := hs
            exact hi.keep rfl (fun _ => ha) (fun _ _ x => x) (fun _ x => x) (fun x => x)
          | true =>
            simp only [if_true] at hs
            rcases res with (x | _) | _ <;>
            · simp only [Option.some.injEq, Prod.mk.injEq] at hs
              obtain ⟨rfl, rfl⟩ := hs
              exact hi.keep hin (fun _ => ha) (fun _ _ x => x) (fun _ x => x) (fun x => x)
  | receive p =>
    cases ha : s.alive with
    | false => simp [Sys.step, ha] at hs
    | true =>
      have hin := Handler.incomingState_incoming s.handler.state p
      rw [Sys.step_receive ha] at hs
      cases eo : Handler.incomingState s.handler.state p with
      | mk st res =>
        simp only [eo] at hs hin
        rcases res with f | ⟨reply, sh⟩
        · -- errors: neither a publish nor a PUBREL changed the set
          have hsame : st.incoming = s.handler.state.incoming := by
            cases p with
            | publish q =>
              simp only [Handler.incomingState, Handler.incomingPublish] at eo
              cases hq : q.qos <;> cases hk : q.pkid <;> simp [hq, hk] at eo
              all_goals simp [hq, hk] at hin; exact hin
            | pubRel a => simp [Handler.incomingState, Handler.incomingPubRel, Handler.shown] at eo
            | _ => exact hin
          cases f with
          | err x =>
            simp only [Option.some.injEq, Prod.mk.injEq] at hs
            obtain ⟨rfl, rfl⟩ := hs
            exact hi.keep hsame (fun _ => ha) (fun _ _ x => x) (fun _ x => x) (fun x => x)
          | panic =>
            simp only [Option.some.injEq, Prod.mk.injEq] at hs
            obtain ⟨rfl, rfl⟩ := hs
            exact hi.keep hsame (fun _ => ha) (fun _ _ x => x) (fun _ x => x) (fun x => x)
        · simp only [Option.some.injEq, Prod.mk.injEq] at hs
          obtain ⟨rfl, rfl⟩ := hs
          cases p with
          | publish q =>
            simp only at hin
            cases hq : q.qos with
            | exactlyOnce =>
              cases hk : q.pkid with
              | none => simp [Handler.incomingState, Handler.incomingPublish, hq, hk] at eo
              | some id =>
                simp only [hq, hk] at hin
                refine ⟨by simp only [hin]; exact IdSet.insert_sorted hi.sorted, fun _ a => ?_⟩
                simp only [hin, IdSet.insert_mem, open_snoc, hi.iff ha a, Arrival, hq, hk, Released, Reconnected]
                constructor
                · rintro (rfl | h)
                  · exact Or.inl ⟨sh, trivial, rfl, rfl⟩
                  · exact Or.inr ⟨h, fun x => x, fun x => x⟩
                · rintro (⟨b, _, h, _⟩ | h)
                  · exact Or.inl (Option.some.inj h).symm
                  · exact Or.inr h.1
            | _ =>
              rw [hq] at hin
              exact hi.keep (by simpa using hin) (fun _ => ha) (by simp [Arrival, hq]) (fun _ x => x) (fun x => x)
          | pubRel a =>
            simp only at hin
            refine ⟨by simp only [hin]; exact IdSet.remove_sorted hi.sorted, fun _ x => ?_⟩
            simp only [hin, IdSet.mem_remove hi.sorted, open_snoc, hi.iff ha x, Arrival, Released, Reconnected]
            constructor
            · rintro ⟨h1, h2⟩; exact Or.inr ⟨h1, fun h => h2 h.symm, fun x => x⟩
            · rintro (⟨b, h⟩ | h)
              · exact absurd h (by simp)
              · exact ⟨h.1, fun hx => h.2.1 hx.symm⟩
          | _ => exact hi.keep hin (fun _ => ha) (by simp [Arrival]) (by simp [Released]) (fun x => x)
  | connAck c =>
    cases ha : s.alive with
    | false => simp [Sys.step, ha] at hs
    | true =>
      simp only [Sys.step, ha, if_true] at hs
      have hc := Handler.connAck_incoming s.handler c
      cases eo : s.handler.connAck c with
      | mk hd res =>
        simp only [eo] at hs hc
        have hempty : ∀ (e : Event), hd.state.incoming = [] → Reconnected e →
            (∀ id b, ¬ Arrival id b e) → ∀ (q : Bool), RInv { s with handler := hd, alive := q } (h ++ [e]) := by
          intro e h1 h2 h3 q
          refine ⟨by simp [h1], fun _ id => ?_⟩
          simp only [h1, open_snoc]
          constructor
          · intro hx; simp at hx
          · rintro (⟨b, hb⟩ | hb)
            · exact absurd hb (h3 id b)
            · exact absurd h2 hb.2.2
        rcases res with (x | _) | (_ | ps)
        · simp only [Option.some.injEq, Prod.mk.injEq] at hs
          obtain ⟨rfl, rfl⟩ := hs
          rcases hc with hc | ⟨_, hc | hc⟩
          · refine hempty _ hc ?_ ?_ true
            · trivial
            · exact fun _ _ x => x
          · simp at hc
          · simp at hc
        · simp only [Option.some.injEq, Prod.mk.injEq] at hs
          obtain ⟨rfl, rfl⟩ := hs
          refine ⟨?_, by simp [Sys.die]⟩
          rcases hc with hc | ⟨hc, _⟩
          · simp [Sys.die, hc]
          · simp only [Sys.die, hc]; exact hi.sorted
        · simp only [Option.some.injEq, Prod.mk.injEq] at hs
          obtain ⟨rfl, rfl⟩ := hs
          have : hd = s.handler := by
            unfold Handler.connAck at eo
            repeat' split at eo
            all_goals simp at eo
            exact eo.symm
          subst this
          exact hi.keep rfl (fun _ => ha) (fun _ _ x => x) (fun _ x => x) (fun x => x)
        · simp only [Option.some.injEq, Prod.mk.injEq] at hs
          obtain ⟨rfl, rfl⟩ := hs
          rcases hc with hc | ⟨_, hc | hc⟩
          · refine hempty _ hc ?_ ?_ true
            · trivial
            · exact fun _ _ x => x
          · simp at hc
          · simp at hc

theorem RInv.run : ∀ (ops : List Op) {s : Sys} {h : List Event}, RInv s h → RInv (s.run ops).1 (h ++ (s.run ops).2)
  | [], s, h, hi => by simpa [Sys.run] using hi
  | op :: ops, s, h, hi => by
    unfold Sys.run
    cases hs : s.step op with
    | none => exact RInv.run ops hi
    | some x =>
      obtain ⟨s', e⟩ := x
      have := RInv.run ops (hi.step hs)
      simpa using this

theorem RInv.start (n r : UInt16) (m : Nat) (clean : Bool) (ops : List Op) :
    RInv ((Sys.init n r m clean).run ops).1 ((Sys.init n r m clean).run ops).2 := by
  have : RInv (Sys.init n r m clean) [] :=
    ⟨by simp [Sys.init, State.new], fun _ id => by simp [Sys.init, State.new, open_nil]⟩
  simpa using this.run ops

end Mqrstt
