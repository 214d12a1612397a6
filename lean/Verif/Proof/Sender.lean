import Verif.Spec.Sender
import Verif.Proof.Connects
/-! # What a network writes, against the rules for senders -/

namespace Mqrstt
open Spec

variable {n r : UInt16} {clean : Bool} {s : Sys} {l : Ledger} {lost : List UInt16}

/-! ## acknowledgements and the ledger -/

theorem release_err {st st' : State} {id : UInt16} {e : HErr} (h : Handler.release st id = (st', .error (.err e))) :
    ∃ i, e = .packetIdChannelError i := by
  unfold Handler.release at h
  generalize hm : st.makePkidAvailable id = out at h
  obtain ⟨st1, res⟩ := out
  rcases res with f | _
  · simp only [Prod.mk.injEq, Except.error.injEq] at h
    obtain ⟨rfl, rfl⟩ := h
    simp only [State.makePkidAvailable, Prod.mk.injEq] at hm
    have h2 := hm.2
    unfold Pool.markAvailable at h2
    repeat' split at h2
    all_goals simp at h2
    exact ⟨_, h2.symm⟩
  · simp at h

/-- the two things that an acknowledgement can do -/
theorem Inv.step_pubAck (h : Inv n r clean s l lost) {a : Ack} {s' : Sys} {e : Event}
    (hs : s.step (.receive (.pubAck a)) = some (s', e)) (ha : s'.alive = true) :
    (a.id ∈ l.publishIds ∧ l.step clean e = l.onReceived (.pubAck a)) ∨ (a.id ∉ l.publishIds ∧ l.step clean e = l) := by
  have ha0 := Sys.step_alive hs ha
  have hl := h.live ha0
  rw [Sys.step_receive ha0] at hs
  simp only [Handler.incomingState, Handler.incomingPubAck] at hs
  rw [hl.mem_order]
  rcases State.removeOutgoingPub_eq s.handler.state a.id with ⟨hi, hr⟩ | ⟨i, hi, hn, hr⟩ | ⟨i, p', hi, hp, hr⟩
  · rw [hr] at hs
    simp only [Handler.shown, Option.some.injEq, Prod.mk.injEq] at hs
    obtain ⟨rfl, rfl⟩ := hs
    simp [Sys.die] at ha
  · rw [hr] at hs
    simp only [Handler.shown, Option.some.injEq, Prod.mk.injEq] at hs
    obtain ⟨-, rfl⟩ := hs
    exact .inr ⟨by simp [hn], rfl⟩
  · rw [hr] at hs
    refine .inl ⟨⟨p', by first | exact hp | simp [State.stored, hi, hp]⟩, ?_⟩
    simp only at hs
    generalize hrel : Handler.release _ a.id = out at hs
    obtain ⟨st, res⟩ := out
    rcases res with f | o
    · cases f with
      | err e' =>
        obtain ⟨i, rfl⟩ := release_err hrel
        simp only [Handler.shown, Option.some.injEq, Prod.mk.injEq] at hs
        obtain ⟨-, rfl⟩ := hs
        rfl
      | panic =>
        simp only [Handler.shown, Option.some.injEq, Prod.mk.injEq] at hs
        obtain ⟨rfl, -⟩ := hs
        simp [Sys.die] at ha
    · simp only [Handler.shown, Option.some.injEq, Prod.mk.injEq] at hs
      obtain ⟨-, rfl⟩ := hs
      rfl

theorem Inv.step_pubRec (h : Inv n r clean s l lost) {a : Ack} {s' : Sys} {e : Event}
    (hs : s.step (.receive (.pubRec a)) = some (s', e)) (ha : s'.alive = true) :
    (a.id ∈ l.publishIds ∧ l.step clean e = l.onReceived (.pubRec a)) ∨ (a.id ∉ l.publishIds ∧ l.step clean e = l) := by
  have ha0 := Sys.step_alive hs ha
  have hl := h.live ha0
  have hk0 := hs
  rw [Sys.step_receive ha0] at hs
  simp only [Handler.incomingState, Handler.incomingPubRec] at hs
  rw [hl.mem_order]
  rcases State.removeOutgoingPub_eq s.handler.state a.id with ⟨hi, hr⟩ | ⟨i, hi, hn, hr⟩ | ⟨i, p', hi, hp, hr⟩
  · rw [hr] at hs
    simp only [Handler.shown, Option.some.injEq, Prod.mk.injEq] at hs
    obtain ⟨rfl, rfl⟩ := hs
    simp [Sys.die] at ha
  · rw [hr] at hs
    simp only [Handler.shown, Option.some.injEq, Prod.mk.injEq] at hs
    obtain ⟨-, rfl⟩ := hs
    exact .inr ⟨by simp [hn], rfl⟩
  · rw [hr] at hs
    refine .inl ⟨⟨p', by first | exact hp | simp [State.stored, hi, hp]⟩, ?_⟩
    obtain ⟨s'', hk, -⟩ := h.pubRec_known ha0 (hl.mem_order.mpr ⟨p', hp⟩)
    rw [hk0] at hk
    cases hk
    rfl

theorem Inv.step_pubComp (h : Inv n r clean s l lost) {a : Ack} {s' : Sys} {e : Event}
    (hs : s.step (.receive (.pubComp a)) = some (s', e)) (ha : s'.alive = true) :
    l.step clean e = l.onReceived (.pubComp a) := by
  have ha0 := Sys.step_alive hs ha
  have hl := h.live ha0
  rcases Decidable.em (a.id ∈ l.accepted) with hm | hm
  · rw [Sys.step_receive ha0] at hs
    have hb : s.handler.state.rel.contains a.id = true := by simpa using hl.mem_rel.mpr hm
    simp only [Handler.incomingState, Handler.incomingPubComp, State.removeOutgoingRel, IdSet.remove, hb, if_true] at hs
    generalize hrel : Handler.release _ a.id = out at hs
    obtain ⟨st, res⟩ := out
    rcases res with f | o
    · cases f with
      | err e' =>
        obtain ⟨i, rfl⟩ := release_err hrel
        simp only [Handler.shown, Option.some.injEq, Prod.mk.injEq] at hs
        obtain ⟨-, rfl⟩ := hs
        rfl
      | panic =>
        simp only [Handler.shown, Option.some.injEq, Prod.mk.injEq] at hs
        obtain ⟨rfl, -⟩ := hs
        simp [Sys.die] at ha
    · simp only [Handler.shown, Option.some.injEq, Prod.mk.injEq] at hs
      obtain ⟨-, rfl⟩ := hs
      rfl
  · rw [h.pubComp_unknown ha0 hm] at hs
    cases hs
    simp [Ledger.step, Ledger.onReceived, List.erase_of_not_mem hm]

/-- other packets do not touch the publishes -/
theorem step_other {p : Packet} {s' : Sys} {e : Event} (hs : s.step (.receive p) = some (s', e))
    (h1 : ∀ a, p ≠ .pubAck a) (h2 : ∀ a, p ≠ .pubRec a) (h3 : ∀ a, p ≠ .pubComp a) :
    (l.step clean e).unacked = l.unacked ∧ (l.step clean e).accepted = l.accepted := by
  have hr : (l.onReceived p).unacked = l.unacked ∧ (l.onReceived p).accepted = l.accepted := by
    cases p <;> first | exact ⟨rfl, rfl⟩ | simp_all
  rcases Sys.step_receive_event hs with ⟨_, _, rfl⟩ | ⟨er, rfl⟩ | rfl
  · exact hr
  · cases er <;> first | exact ⟨rfl, rfl⟩ | exact hr
  · exact ⟨rfl, rfl⟩

theorem client_ledger {e : Event} (h : e.ofClient = true) :
    (l.step clean e).unacked = l.unacked ∧ (l.step clean e).accepted = l.accepted := by
  cases e <;> first | exact ⟨rfl, rfl⟩ | simp [Event.ofClient] at h

/-! ## the sender and the ledger -/

/-- what the sender remembers is what the client remembers, as long as it lives -/
structure Keeps (clean : Bool) (v : View) (s : Sender) : Prop where
  inv : ∃ n r l lost, Inv n r clean v.sys l lost ∧ (v.sys.alive = true → s.unacked = l.unacked ∧ s.accepted = l.accepted)
  running : s.running = v.running

theorem isFor_any (l : Ledger) (id : UInt16) : l.unacked.any (Sender.isFor id) = true ↔ id ∈ l.publishIds := by
  simp [Ledger.publishIds, Sender.isFor, List.any_eq_true]

theorem filter_isFor (us : List Publish) (id : UInt16) :
    (us.filter fun p => !Sender.isFor id p) = us.filter (·.pkid ≠ some id) := by
  apply List.filter_congr
  intro p _
  simp [Sender.isFor, Bool.beq_eq_decide_eq]

theorem filter_none {l : Ledger} {id : UInt16} (h : id ∉ l.publishIds) : l.unacked.filter (·.pkid ≠ some id) = l.unacked := by
  rw [List.filter_eq_self]
  intro p hp
  simp only [ne_eq, decide_not, Bool.not_eq_eq_eq_not, Bool.not_true, decide_eq_false_iff_not]
  intro he
  exact h (List.mem_filterMap.mpr ⟨p, hp, he⟩)

/-- an acknowledgement has the same effect on both -/
theorem Inv.onAck (h : Inv n r clean s l lost) {p : Packet} {s' : Sys} {e : Event}
    (hs : s.step (.receive p) = some (s', e)) (ha : s'.alive = true) (x : Sender)
    (hu : x.unacked = l.unacked) (hc : x.accepted = l.accepted) :
    (x.onAck p).unacked = (l.step clean e).unacked ∧ (x.onAck p).accepted = (l.step clean e).accepted := by
  cases p
  case pubAck a =>
    rcases h.step_pubAck hs ha with ⟨_, he⟩ | ⟨hn, he⟩
    · rw [he]; simp only [Sender.onAck]; split <;> exact ⟨by simp only [filter_isFor, hu]; rfl, hc⟩
    · rw [he]; simp only [Sender.onAck]; split <;> exact ⟨by simp only [filter_isFor, hu, filter_none hn], hc⟩
  case pubRec a =>
    rcases h.step_pubRec hs ha with ⟨hm, he⟩ | ⟨hn, he⟩
    · have hm' : x.unacked.any (Sender.isFor a.id) = true := by rw [hu]; exact (isFor_any _ _).mpr hm
      rw [he]
      simp only [Sender.onAck, hm', if_true, Ledger.onReceived]
      split <;> simp_all [filter_isFor]
    · have hm' : x.unacked.any (Sender.isFor a.id) = false := by
        rw [hu, Bool.eq_false_iff]; exact fun hh => hn ((isFor_any _ _).mp hh)
      rw [he]
      simp only [Sender.onAck, hm', Bool.false_eq_true, if_false]
      exact ⟨hu, hc⟩
  case pubComp a =>
    rw [h.step_pubComp hs ha]
    exact ⟨hu, by simp [Sender.onAck, Ledger.onReceived, hc]⟩
  all_goals
    have := step_other (l := l) (clean := clean) hs (by simp) (by simp) (by simp)
    rw [this.1, this.2]
    exact ⟨hu, hc⟩

/-! ## observations that leave the sender alone -/

/-- the packets of a list of observations may all be written, one after the other -/
def Sends (clean : Bool) : Sender → List Obs → Prop
  | _, [] => True
  | s, x :: o => (∀ p a b, x = .wrote p a b → isConnectObs x = false → s.MaySend clean p) ∧
      (isConnectObs x = true → s.running = false) ∧ Sends clean (s.next clean x) o

theorem Sends.append {clean : Bool} : ∀ {a b : List Obs} {s : Sender}, Sends clean s a →
    Sends clean (a.foldl (Sender.next clean) s) b → Sends clean s (a ++ b)
  | [], _, _, _, h2 => h2
  | _ :: _, _, _, h1, h2 => ⟨h1.1, h1.2.1, h1.2.2.append h2⟩

theorem Sends.at {clean : Bool} : ∀ {pre : List Obs} {x : Obs} {post : List Obs} {s : Sender}, Sends clean s (pre ++ x :: post) →
    (∀ p a b, x = .wrote p a b → isConnectObs x = false → (pre.foldl (Sender.next clean) s).MaySend clean p) ∧
      (isConnectObs x = true → (pre.foldl (Sender.next clean) s).running = false)
  | [], _, _, _, h => ⟨h.1, h.2.1⟩
  | _ :: pre, _, _, _, h => Sends.at (pre := pre) h.2.2


theorem keeps_same {v w : View} {x y : Sender} (h : Keeps clean v x) (hs : w.sys = v.sys)
    (hu : y.unacked = x.unacked) (hc : y.accepted = x.accepted) (hr : y.running = w.running) : Keeps clean w y := by
  obtain ⟨n, r, l, lost, hi, hl⟩ := h.inv
  exact ⟨⟨n, r, l, lost, hs ▸ hi, by rw [hs, hu, hc]; exact hl⟩, hr⟩

theorem keeps_dead {v w : View} {x y : Sender} {op : Op} {e : Event} (h : Keeps clean v x) (hs : v.sys.step op = some (w.sys, e))
    (hd : w.sys.alive = false) (hr : y.running = w.running) : Keeps clean w y := by
  obtain ⟨n, r, l, lost, hi, hl⟩ := h.inv
  exact ⟨⟨n, r, _, _, hi.step hs, by simp [hd]⟩, hr⟩

/-- sending again everything that was sent before, or a part of it -/
theorem resend_sends {T : Times} (rs : List UInt16) : ∀ (us sk : List Publish) (ws : List Packet) (s : Sender),
    ws.Sublist (us.map again ++ rs.map fun id => .pubRel (State.successAck id)) →
    s.again = sk ++ us → ((sk ++ us).map (·.pkid)).Nodup → (∀ p ∈ us, p.qos ≠ .atMostOnce) → s.running = false →
    rs.Nodup → (∀ id ∈ rs, id ∈ s.rels) →
    Sends clean s (wrotes T ws) ∧
    ((wrotes T ws).foldl (Sender.next clean) s).unacked = s.unacked ∧
    ((wrotes T ws).foldl (Sender.next clean) s).accepted = s.accepted ∧
    ((wrotes T ws).foldl (Sender.next clean) s).running = s.running
  | [], sk, ws, s, hw, hs, hn, hq, hr, hnr, hm => by
    simp only [List.map_nil, List.nil_append] at hw
    clear hs hn hq sk
    induction rs generalizing ws s with
    | nil =>
      simp only [List.map_nil, List.sublist_nil] at hw
      subst hw
      exact ⟨trivial, rfl, rfl, rfl⟩
    | cons id rs ih =>
      rw [List.nodup_cons] at hnr
      rw [List.map_cons] at hw
      cases hw with
      | cons _ hw => exact ih _ _ hr hnr.2 (fun i hi => hm i (List.mem_cons_of_mem _ hi)) hw
      | cons_cons _ hw =>
        rename_i ws
        have := ih ws { s with rels := s.rels.erase id } hr hnr.2 (fun i hi => by
          have h1 := hm i (List.mem_cons_of_mem _ hi)
          have h2 : i ≠ id := fun e => hnr.1 (e ▸ hi)
          exact (List.mem_erase_of_ne h2).mpr h1) hw
        refine ⟨⟨?_, by simp [isConnectObs], this.1⟩, this.2⟩
        intro p a b hx _
        cases hx
        exact ⟨hm id List.mem_cons_self, rfl⟩
  | u :: us, sk, ws, s, hw, hs, hn, hq, hr, hnr, hm => by
    rw [List.map_cons, List.cons_append] at hw
    have hq' : ∀ p ∈ us, p.qos ≠ .atMostOnce := fun p hp => hq p (List.mem_cons_of_mem _ hp)
    cases hw with
    | cons _ hw =>
      refine resend_sends rs us (sk ++ [u]) _ s hw (by simp [hs]) (by simpa using hn) hq' hr hnr hm
    | cons_cons _ hw =>
      rename_i ws
      have hu := hq u List.mem_cons_self
      have hdrop : ((sk ++ u :: us).dropWhile fun q => q.pkid != u.pkid).tail = us := by
        have hsk : ∀ q ∈ sk, (q.pkid != u.pkid) = true := by
          intro q hq1
          rw [List.map_append, List.nodup_append] at hn
          simp only [bne_iff_ne]
          exact hn.2.2 _ (List.mem_map_of_mem hq1) _ (by simp)
        rw [List.dropWhile_append_of_pos hsk]
        simp
      have hnext : Sender.next clean s (.wrote (again u) T.fire T.first) = { s with again := us } := by
        simp only [Sender.next, again, Sender.onWrote, hu, if_false, if_true, hs, hdrop]
      have := resend_sends (T := T) rs us [] ws { s with again := us } hw rfl
        (by rw [List.map_append, List.nodup_append] at hn; simpa using (List.nodup_cons.mp hn.2.1).2) hq' hr hnr hm
      refine ⟨⟨?_, by simp [isConnectObs, again], ?_⟩, ?_⟩
      · intro p a b hx _
        cases hx
        exact .inr (.inr ⟨hu, hr, u, by rw [hs]; simp, rfl⟩)
      · rw [hnext]; exact this.1
      · have e : (wrotes T (again u :: ws)).foldl (Sender.next clean) s =
            (wrotes T ws).foldl (Sender.next clean) (Sender.next clean s (.wrote (again u) T.fire T.first)) := rfl
        rw [e, hnext]
        exact this.2

/-- everything is sent again, nothing is left -/
theorem resend_all {T : Times} (rs : List UInt16) : ∀ (us : List Publish) (s : Sender),
    s.again = us → (∀ p ∈ us, p.qos ≠ .atMostOnce) → rs.Perm s.rels →
    ((wrotes T (us.map again ++ rs.map fun id => .pubRel (State.successAck id))).foldl (Sender.next clean) s).again = [] ∧
    ((wrotes T (us.map again ++ rs.map fun id => .pubRel (State.successAck id))).foldl (Sender.next clean) s).rels = []
  | [], s, hs, _, hr => by
    simp only [List.map_nil, List.nil_append]
    induction rs generalizing s with
    | nil => exact ⟨hs, hr.symm.eq_nil⟩
    | cons id rs ih =>
      refine ih { s with rels := s.rels.erase id } hs ?_
      have := hr.erase id
      simpa using this
  | u :: us, s, hs, hq, hr => by
    have hu := hq u List.mem_cons_self
    have hnext : Sender.next clean s (.wrote (again u) T.fire T.first) = { s with again := us } := by
      simp only [Sender.next, again, Sender.onWrote, hu, if_false, if_true, hs]
      simp
    have := resend_all (T := T) rs us { s with again := us } rfl (fun p hp => hq p (List.mem_cons_of_mem _ hp)) hr
    have e : (wrotes T ((u :: us).map again ++ rs.map fun id => .pubRel (State.successAck id))).foldl (Sender.next clean) s =
        (wrotes T (us.map again ++ rs.map fun id => .pubRel (State.successAck id))).foldl (Sender.next clean)
          (Sender.next clean s (.wrote (again u) T.fire T.first)) := rfl
    rw [e, hnext]
    exact this

/-- the same when the observations begin with an accepted CONNECT -/
theorem established_sends {T : Times} {v : View} {x : Sender} (h : Keeps clean v x) (hr : v.running = false) (ha : v.sys.alive = true)
    {cn : Connect} {a b : Nat} {c : ConnAck} {ps ws : List Packet} {sys : Sys}
    (hc : c.reason = .success) (hs : v.sys.step (.connAck c) = some (sys, .connected c ps)) (hw : ws.Sublist ps) :
    let o := [.wrote (.connect cn) a b, .read (.connAck c), .delivered (.connAck c)] ++ wrotes T ws
    Sends clean x o ∧ ∀ w : View, w.sys = sys → w.running = v.running → Keeps clean w (o.foldl (Sender.next clean) x) := by
  obtain ⟨n, r, l, lost, hi, hl⟩ := h.inv
  obtain ⟨hu, hacc⟩ := hl ha
  obtain ⟨-, hi', h1, h2, h3⟩ := hi.connAck_event hs
  have hrun : x.running = false := h.running.trans hr
  intro o
  have hx : [.wrote (.connect cn) a b, .read (.connAck c), .delivered (.connAck c)].foldl (Sender.next clean) x
      = ({ x with again := [], rels := [] } : Sender).onAccepted clean c := by
    simp [Sender.next, Sender.onWrote, hrun, hc]
  have hhead : Sends clean x [.wrote (.connect cn) a b, .read (.connAck c), .delivered (.connAck c)] := by
    refine ⟨?_, fun _ => hrun, ?_, ?_, ?_, ?_, trivial⟩ <;> simp [isConnectObs]
  have key : Sends clean (({ x with again := [], rels := [] } : Sender).onAccepted clean c) (wrotes T ws) ∧
      (((wrotes T ws).foldl (Sender.next clean) (({ x with again := [], rels := [] } : Sender).onAccepted clean c)).unacked
        = (l.onConnected clean c).unacked) ∧
      (((wrotes T ws).foldl (Sender.next clean) (({ x with again := [], rels := [] } : Sender).onAccepted clean c)).accepted
        = (l.onConnected clean c).accepted) ∧
      (((wrotes T ws).foldl (Sender.next clean) (({ x with again := [], rels := [] } : Sender).onAccepted clean c)).running
        = false) := by
    cases hres : Ledger.resumed clean c with
    | false =>
      have := h2 hres
      subst this
      rw [List.sublist_nil] at hw
      subst hw
      refine ⟨trivial, ?_, ?_, ?_⟩ <;> simp [wrotes, Sender.onAccepted, Ledger.onConnected, hres, hrun]
    | true =>
      rw [h1 hres] at hw
      have hn : (l.unacked.map (·.pkid)).Nodup := by
        have hl' := hi.live ha
        have : l.unacked.map (·.pkid) = l.publishIds.map some := by
          have hsome : ∀ us : List Publish, (∀ p ∈ us, ∃ id, p.pkid = some id) → us.map (·.pkid) = (us.filterMap (·.pkid)).map some := by
            intro us
            induction us with
            | nil => intro _; rfl
            | cons p us ih =>
              intro hp
              obtain ⟨id, hid⟩ := hp p List.mem_cons_self
              rw [List.map_cons, List.filterMap_cons_some hid, List.map_cons, hid, ih (fun q hq => hp q (List.mem_cons_of_mem _ hq))]
          exact hsome _ (fun p hp => by obtain ⟨id, h1, _⟩ := hl'.stored p hp; exact ⟨id, h1⟩)
        rw [this]
        have hnd : l.publishIds.Nodup := by
          rw [List.nodup_iff_count]
          intro a
          have := hi.le_one a
          omega
        rw [List.nodup_iff_pairwise_ne] at hnd ⊢
        exact List.Pairwise.map _ (fun a b h e => h (Option.some.inj e)) hnd
      have hnr : v.sys.handler.state.rel.Nodup := by
        rw [List.nodup_iff_count]
        intro a
        have := hi.le_one a
        have := (hi.live ha).rel a
        omega
      have := resend_sends (clean := clean) (T := T) v.sys.handler.state.rel l.unacked [] ws
        { x with again := x.unacked, rels := x.accepted } hw (by simp [hu]) (by simpa using hn)
        (fun p hp => by obtain ⟨id, -, h1, -⟩ := (hi.live ha).stored p hp; exact h1) hrun hnr
        (fun id hid => by rw [hacc]; exact (hi.live ha).mem_rel.mp hid)
      simp only [Sender.onAccepted, hres, if_true, Ledger.onConnected]
      exact ⟨this.1, this.2.1.trans hu, this.2.2.1.trans hacc, this.2.2.2.trans hrun⟩
  constructor
  · exact hhead.append (by rw [hx]; exact key.1)
  · intro w hw1 hw2
    have e : o.foldl (Sender.next clean) x = (wrotes T ws).foldl (Sender.next clean)
        (({ x with again := [], rels := [] } : Sender).onAccepted clean c) := by
      rw [← hx, ← List.foldl_append]
    rw [e]
    exact ⟨⟨n, r, _, _, hw1 ▸ hi', fun _ => ⟨key.2.1, key.2.2.1⟩⟩, by rw [hw2, hr]; exact key.2.2.2⟩

theorem notFor_of {v : View} (hi : Inv n r clean v.sys l lost) (ha : v.sys.alive = true) {p : Publish} {id : UInt16}
    {rest : List Packet} (hq : v.sys.queue = .publish p :: rest) (hid : p.pkid = some id) :
    id ∉ l.publishIds ∧ id ∉ l.accepted := by
  obtain ⟨failed, hf⟩ := (hi.live ha).queued
  have h1 := hf id
  have h2 := hi.le_one id
  rw [hq, count_filterMap_cons] at h1
  have : ind (Packet.ident (.publish p)) id = 1 := by simp [Packet.ident, hid, ind]
  constructor <;> (rw [← List.count_eq_zero]; omega)

/-- the head of the queue may be written -/
theorem queue_sends {v : View} {x : Sender} (h : Keeps clean v x) (ha : v.sys.alive = true) (hr : v.running = true)
    {p : Packet} {rest : List Packet} (hq : v.sys.queue = p :: rest) : x.MaySend clean p ∧ Submittable p := by
  obtain ⟨n, r, l, lost, hi, hl⟩ := h.inv
  obtain ⟨hu, hacc⟩ := hl ha
  have hsub := (hi.live ha).qok p (by rw [hq]; exact List.mem_cons_self)
  refine ⟨?_, hsub⟩
  cases p <;> first | exact trivial | (simp [Submittable] at hsub; done) | skip
  rename_i p
  obtain ⟨hd, hid⟩ := hsub
  rcases Decidable.em (p.qos = .atMostOnce) with h0 | h0
  · exact .inl ⟨h0, hd, hid.mpr h0⟩
  · cases hp : p.pkid with
    | none => exact absurd (hid.mp hp) h0
    | some id =>
      obtain ⟨h1, h2⟩ := notFor_of hi ha hq hp
      refine .inr (.inl ⟨h0, hd, h.running.trans hr, id, hp, ?_, hacc ▸ h2⟩)
      rw [hu, Bool.eq_false_iff]
      exact fun hh => h1 ((isFor_any _ _).mp hh)

theorem onWrote_written {x : Sender} {p : Packet} (hp : Submittable p)
    (hu : x.unacked = l.unacked) (hc : x.accepted = l.accepted) :
    (x.onWrote p).unacked = (l.onWritten p).unacked ∧ (x.onWrote p).accepted = (l.onWritten p).accepted ∧
      (x.onWrote p).running = x.running := by
  cases p <;> first | (simp [Submittable] at hp; done) | exact ⟨hu, hc, rfl⟩ | skip
  rename_i p
  obtain ⟨hd, -⟩ := hp
  simp only [Sender.onWrote, Ledger.onWritten, hd]
  split <;> simp_all

theorem shown_fold {x : Sender} {p : Packet} {b : Bool} (hr : x.running = true) :
    (shownObs p b).foldl (Sender.next clean) x = x.onAck p ∧ Sends clean x (shownObs p b) := by
  cases b <;> simp [shownObs, Sender.next, hr, Sends, isConnectObs]

theorem onAck_running (x : Sender) (p : Packet) : (x.onAck p).running = x.running := by
  cases p <;> simp only [Sender.onAck] <;> repeat' split
  all_goals rfl

/-- an answer may be written -/
theorem Inv.reply_sends (h : Inv n r clean s l lost) (ha : s.alive = true) {p : Packet} {reply : Option Packet} {shown : Bool} {s' : Sys}
    (hs : s.step (.receive p) = some (s', .received p reply shown)) (x : Sender) (hu : x.unacked = l.unacked) (T : Times) :
    Sends clean (x.onAck p) (wrotes T reply.toList) ∧
    ((wrotes T reply.toList).foldl (Sender.next clean) (x.onAck p)).unacked = (x.onAck p).unacked ∧
    ((wrotes T reply.toList).foldl (Sender.next clean) (x.onAck p)).accepted = (x.onAck p).accepted ∧
    ((wrotes T reply.toList).foldl (Sender.next clean) (x.onAck p)).running = (x.onAck p).running := by
  cases Sys.step_answer hs
  case pubRecOk =>
    rename_i a
    have hm : a.id ∈ l.publishIds := by
      rcases Decidable.em (a.id ∈ l.publishIds) with hm | hm
      · exact hm
      · exfalso
        rcases Decidable.em (a.id = 0 ∨ r.toNat < a.id.toNat) with hz | hz
        · obtain ⟨-, s'', h2⟩ := h.ack_no_slot ha hz
          rw [h2] at hs; simp at hs
        · have h1 : 1 ≤ a.id.toNat := by
            have : a.id.toNat ≠ 0 := fun e => hz (.inl (UInt16.toNat_inj.mp e))
            omega
          rw [h.pubRec_unknown ha h1 (by omega) hm] at hs
          simp at hs
    have hm' : x.unacked.any (Sender.isFor a.id) = true := by rw [hu]; exact (isFor_any _ _).mpr hm
    have hacc : Ledger.accepts a = true := by
      obtain ⟨s'', h2, -⟩ := h.pubRec_known ha hm
      rw [h2] at hs
      cases hb : Ledger.accepts a with
      | true => rfl
      | false => rw [hb] at hs; simp at hs
    refine ⟨⟨?_, by simp [isConnectObs], trivial⟩, rfl, rfl, rfl⟩
    intro q _ _ e _
    cases e
    refine ⟨?_, rfl⟩
    simp only [Sender.onAck, hm', if_true]
    rw [if_pos hacc]
    simp
  all_goals first
    | exact ⟨trivial, rfl, rfl, rfl⟩
    | exact ⟨⟨by intro q _ _ e _; cases e; trivial, by simp [isConnectObs], trivial⟩, rfl, rfl, rfl⟩

theorem VStep.sends {fl : Flavor} {v w : View} {o : List Obs} {x : Sender} (h : VStep fl v o w) (hk : Keeps clean v x) :
    Sends clean x o ∧ Keeps clean w (o.foldl (Sender.next clean) x) := by
  obtain ⟨n, r, l, lost, hi, hl⟩ := hk.inv
  have hx := hk.running
  cases h
  case client hc hs =>
    refine ⟨⟨by simp, by simp [isConnectObs], trivial⟩, ⟨⟨n, r, _, _, hi.step hs, ?_⟩, hx⟩⟩
    intro ha
    have hl := hl (Sys.step_alive hs ha)
    obtain ⟨h1, h2⟩ := client_ledger (l := l) (clean := clean) (Sys.step_ofClient hc hs)
    rw [h1, h2]
    exact hl
  case drop hs =>
    obtain ⟨rfl, rfl, -⟩ := Sys.step_drop hs
    exact ⟨⟨by simp, by simp [isConnectObs], trivial⟩, keeps_dead hk hs rfl hx⟩
  case noNetwork hr _ _ =>
    exact ⟨⟨by simp, by simp [isConnectObs], trivial⟩, keeps_same hk rfl rfl rfl hr.symm⟩
  case start => exact ⟨⟨by simp, by simp [isConnectObs], trivial⟩, keeps_same hk rfl rfl rfl rfl⟩
  case quiet => exact ⟨trivial, hk⟩
  case cancel => exact ⟨⟨by simp, by simp [isConnectObs], trivial⟩, keeps_same hk rfl rfl rfl rfl⟩
  case wait => exact ⟨trivial, keeps_same hk rfl rfl rfl hx⟩
  case readPing hR =>
    have hr : x.running = true := hx.trans hR.running
    refine ⟨⟨by simp, by simp [isConnectObs], by simp, by simp [isConnectObs], trivial⟩, ?_⟩
    simp only [List.foldl_cons, List.foldl_nil, Sender.next, hr, if_true]
    exact keeps_same hk rfl rfl rfl hx
  case readPingFail hR _ _ =>
    have hr : x.running = true := hx.trans hR.running
    refine ⟨⟨by simp, by simp [isConnectObs], by simp, by simp [isConnectObs], by simp, by simp [isConnectObs], trivial⟩, ?_⟩
    simp only [List.foldl_cons, List.foldl_nil, Sender.next, hr, if_true]
    exact keeps_same hk rfl rfl rfl rfl
  case readDisc hR =>
    have hr : x.running = true := hx.trans hR.running
    refine ⟨⟨by simp, by simp [isConnectObs], by simp, by simp [isConnectObs], by simp, by simp [isConnectObs], trivial⟩, ?_⟩
    simp only [List.foldl_cons, List.foldl_nil, Sender.next, hr, if_true]
    exact keeps_same hk rfl rfl rfl rfl
  case accepted hR hp hs =>
    rename_i T p sys reply shown
    have hr : x.running = true := hx.trans hR.running
    obtain ⟨h1, h2⟩ := shown_fold (clean := clean) (p := p) (b := shown) hr
    obtain ⟨hu, hc⟩ := hl hR.alive
    have hreply := hi.reply_sends hR.alive hs x hu
    rw [List.foldl_append, h1]
    refine ⟨h2.append (by rw [h1]; exact (hreply T).1), ?_⟩
    obtain ⟨g1, g2, g3⟩ := (hreply T).2
    refine ⟨⟨n, r, _, _, hi.step hs, fun ha => ?_⟩, ?_⟩
    · rw [g1, g2]
      exact hi.onAck hs ha x hu hc
    · rw [g3, onAck_running]
      exact hx
  case acceptedFail hR hp he hs =>
    rename_i T p sys reply shown e
    have hr : x.running = true := hx.trans hR.running
    obtain ⟨h1, h2⟩ := shown_fold (clean := clean) (p := p) (b := shown) hr
    refine ⟨h2.append ⟨by simp, by simp [isConnectObs], trivial⟩, ?_⟩
    rw [List.foldl_append, h1]
    refine ⟨⟨n, r, _, _, hi.step hs, fun ha => ?_⟩, rfl⟩
    obtain ⟨hu, hc⟩ := hl hR.alive
    exact hi.onAck hs ha x hu hc
  case refusedPacket hR hp hs =>
    rename_i T p sys e
    have hr : x.running = true := hx.trans hR.running
    refine ⟨⟨by simp, by simp [isConnectObs], by simp, by simp [isConnectObs], trivial⟩, ?_⟩
    simp only [List.foldl_cons, List.foldl_nil, Sender.next, hr, if_true]
    refine ⟨⟨n, r, _, _, hi.step hs, fun ha => ?_⟩, rfl⟩
    obtain ⟨hu, hc⟩ := hl hR.alive
    exact hi.onAck hs ha x hu hc
  case readPanic hR hp hs =>
    exact ⟨⟨by simp, by simp [isConnectObs], by simp, by simp [isConnectObs], trivial⟩,
      keeps_dead hk hs (Sys.step_panicked_alive hs) rfl⟩
  case failed => exact ⟨⟨by simp, by simp [isConnectObs], trivial⟩, keeps_same hk rfl rfl rfl rfl⟩
  case crashed hR =>
    exact ⟨⟨by simp, by simp [isConnectObs], trivial⟩,
      keeps_dead (op := .dropNetwork) (e := .networkDropped) hk (by simp [Sys.step, View.finish, hR.alive]) rfl rfl⟩
  case outFail hR he hs =>
    refine ⟨⟨by simp, by simp [isConnectObs], trivial⟩, ⟨⟨n, r, _, _, hi.step hs, fun ha => ?_⟩, rfl⟩⟩
    exact hl hR.alive
  case outOk hR hs hd =>
    rename_i T p sys
    obtain ⟨p', rest, hq, hev⟩ := Sys.step_write_event hs
    obtain rfl : p' = p := by simp at hev; exact hev.symm
    obtain ⟨h1, h2⟩ := queue_sends hk hR.alive hR.running hq
    obtain ⟨hu, hc⟩ := hl hR.alive
    obtain ⟨h3, h4, h5⟩ := onWrote_written h2 hu hc
    refine ⟨⟨by intro q a b e _; cases e; exact h1, ?_, trivial⟩, ⟨⟨n, r, _, _, hi.step hs, fun ha => ⟨h3, h4⟩⟩, h5.trans hx⟩⟩
    intro hh
    cases p' <;> first | (simp [isConnectObs] at hh; done) | (simp [Submittable] at h2; done)
  case outDisc hR hs hd =>
    rename_i T p sys
    obtain ⟨p', rest, hq, hev⟩ := Sys.step_write_event hs
    obtain rfl : p' = p := by simp at hev; exact hev.symm
    obtain ⟨h1, h2⟩ := queue_sends hk hR.alive hR.running hq
    obtain ⟨hu, hc⟩ := hl hR.alive
    obtain ⟨h3, h4, h5⟩ := onWrote_written h2 hu hc
    refine ⟨⟨by intro q a b e _; cases e; exact h1, ?_, by simp, by simp [isConnectObs], trivial⟩,
      ⟨⟨n, r, _, _, hi.step hs, fun ha => ⟨h3, h4⟩⟩, rfl⟩⟩
    intro hh
    cases p' <;> first | (simp [isConnectObs] at hh; done) | (simp [Submittable] at h2; done)
  case outErr hR hs =>
    rename_i T p sys e
    obtain ⟨p', rest, hq, hev⟩ := Sys.step_write_event hs
    exfalso
    rcases hi.write_ok hR.alive hq with ⟨st, h1, -, -⟩ | ⟨h1, -⟩ <;>
      simp [Sys.step, hR.alive, hq, Handler.outgoing, h1] at hs
  case outPanic hR hq hs =>
    rename_i T p rest sys
    obtain ⟨h1, h2⟩ := queue_sends hk hR.alive hR.running hq
    refine ⟨⟨by intro q a b e _; cases e; exact h1, ?_, by simp, by simp [isConnectObs], trivial⟩,
      keeps_dead hk hs (Sys.step_panicked_alive hs) rfl⟩
    intro hh
    cases p <;> first | (simp [isConnectObs] at hh; done) | (simp [Submittable] at h2; done)
  case pingReq hR _ _ _ =>
    exact ⟨⟨by intro q a b e _; cases e; trivial, by simp [isConnectObs], trivial⟩, keeps_same hk rfl rfl rfl hx⟩
  case timeout hR _ _ =>
    exact ⟨⟨by intro q a b e _; cases e; trivial, by simp [isConnectObs, keepAliveDisconnect], by simp, by simp [isConnectObs], trivial⟩,
      keeps_same hk rfl rfl rfl rfl⟩
  case idleTimeout hR _ _ _ =>
    exact ⟨⟨by intro q a b e _; cases e; trivial, by simp [isConnectObs, keepAliveDisconnect], by simp, by simp [isConnectObs], trivial⟩,
      keeps_same hk rfl rfl rfl rfl⟩
  case connectFailed hr ha ht ho =>
    rcases ho with rfl | ⟨c, a, b, rfl⟩
    · exact ⟨⟨by simp, by simp [isConnectObs], trivial⟩, keeps_same hk rfl rfl rfl hx⟩
    · exact ⟨⟨by intro p a b e; cases e; simp [isConnectObs], fun _ => hx.trans hr, by simp, by simp [isConnectObs], trivial⟩,
        keeps_same hk rfl rfl rfl hx⟩
  case refused hr ha ht hc =>
    have hrun : x.running = false := hx.trans hr
    refine ⟨⟨by intro p a b e; cases e; simp [isConnectObs], fun _ => hrun, by simp, by simp [isConnectObs], by simp,
      by simp [isConnectObs], trivial⟩, ?_⟩
    simp only [List.foldl_cons, List.foldl_nil, Sender.next, Sender.onWrote, hrun, Bool.false_eq_true, if_false, hc]
    exact keeps_same hk rfl rfl rfl hr.symm
  case notConnAck hr ha ht hc =>
    rename_i T p cn a b
    have hrun : x.running = false := hx.trans hr
    refine ⟨⟨by intro p a b e; cases e; simp [isConnectObs], fun _ => hrun, by simp, by simp [isConnectObs], by simp,
      by simp [isConnectObs], trivial⟩, ?_⟩
    simp only [List.foldl_cons, List.foldl_nil, Sender.next, Sender.onWrote, hrun, Bool.false_eq_true, if_false]
    cases p <;> first | exact keeps_same hk rfl rfl rfl hr.symm | exact absurd rfl (hc _)
  case connectCrashed hr ha ht =>
    have hrun : x.running = false := hx.trans hr
    exact ⟨⟨by intro p a b e; cases e; simp [isConnectObs], fun _ => hrun, by simp, by simp [isConnectObs], trivial⟩,
      keeps_dead (op := .dropNetwork) (e := .networkDropped) hk (by simp [Sys.step, ha]) rfl hx⟩
  case established hr ha ht hc hs hw hall =>
    rename_i T cn a b c ps ws sys
    obtain ⟨h1, h2⟩ := established_sends (T := T) (cn := cn) (a := a) (b := b) hk hr ha hc hs hw
    rw [← List.append_assoc, List.foldl_append]
    refine ⟨h1.append ⟨by simp, by simp [isConnectObs], trivial⟩, ?_⟩
    exact h2 _ rfl rfl
  case establishFail hr ha ht hc hs hw hnone =>
    rename_i T cn a b e c ps ws sys
    obtain ⟨h1, h2⟩ := established_sends (T := T) (cn := cn) (a := a) (b := b) hk hr ha hc hs hw
    rw [← List.append_assoc, List.foldl_append]
    refine ⟨h1.append ⟨by simp, by simp [isConnectObs], trivial⟩, ?_⟩
    exact h2 _ rfl rfl
  case establishErr hr ha ht hc hs =>
    rename_i T cn a b e c sys
    have hrun : x.running = false := hx.trans hr
    obtain ⟨hu, hacc⟩ := hl ha
    refine ⟨⟨by intro p a b e; cases e; simp [isConnectObs], fun _ => hrun, by simp, by simp [isConnectObs], by simp,
      by simp [isConnectObs], trivial⟩, ⟨⟨n, r, _, _, hi.step hs, fun ha => ?_⟩, ?_⟩⟩
    · simp only [List.foldl_cons, List.foldl_nil, Sender.next, Sender.onWrote, hrun, Bool.false_eq_true, if_false, hc, if_true,
        Sender.onAccepted, Ledger.step, Ledger.onConnected]
      split <;> exact ⟨by simp [hu], by simp [hacc]⟩
    · simp only [List.foldl_cons, List.foldl_nil, Sender.next, Sender.onWrote, hrun, Bool.false_eq_true, if_false, hc, if_true,
        Sender.onAccepted]
      split <;> exact hr.symm
  case establishPanic hr ha ht hc hs =>
    rename_i T cn a b c sys
    have hrun : x.running = false := hx.trans hr
    refine ⟨⟨by intro p a b e; cases e; simp [isConnectObs], fun _ => hrun, by simp, by simp [isConnectObs], by simp,
      by simp [isConnectObs], trivial⟩, keeps_dead hk hs (Sys.step_panicked_alive hs) ?_⟩
    simp only [List.foldl_cons, List.foldl_nil, Sender.next, Sender.onWrote, hrun, Bool.false_eq_true, if_false, hc, if_true,
      Sender.onAccepted]
    split <;> exact hr.symm

/-! ## histories -/

theorem keeps_init (o : Options) (t : Nat) : Keeps o.cleanStart (View.init o t) Sender.start :=
  ⟨⟨_, _, _, _, Props.inv o.config [], fun _ => ⟨rfl, rfl⟩⟩, rfl⟩

theorem VRun.sends {fl : Flavor} {o : Options} {t : Nat} {tr : List Obs} {w : View} (h : VRun fl (View.init o t) tr w) :
    Sends o.cleanStart Sender.start tr ∧ Keeps o.cleanStart w (sender o.cleanStart tr) := by
  refine h.induct (fun tr w => Sends o.cleanStart Sender.start tr ∧ Keeps o.cleanStart w (sender o.cleanStart tr))
    ⟨trivial, keeps_init o t⟩ ?_
  intro tr w ob w' _ ih hs
  obtain ⟨h1, h2⟩ := VStep.sends hs ih.2
  exact ⟨ih.1.append h1, by unfold sender; rw [List.foldl_append]; exact h2⟩

theorem Spec.IsTraceWith.vrun {o : Options} {tr : List Obs} (h : IsTraceWith o tr) : ∃ fl t w, VRun fl (View.init o t) tr w := by
  cases h with
  | tokio t ops h => subst h; exact ⟨_, t, _, Tokio.vrun o t ops⟩
  | smol checks t ops h => subst h; exact ⟨_, t, _, Smol.vrun checks o t ops⟩

theorem Spec.IsTraceWith.connect {o : Options} {pre post : List Obs} {c : Connect} {a b : Nat}
    (h : IsTraceWith o (pre ++ .wrote (.connect c) a b :: post)) : c.cleanStart = o.cleanStart := by
  cases h with
  | tokio t ops h => have := tokio_connect h.symm; cases this; rfl
  | smol checks t ops h => have := smol_connect h.symm; cases this; rfl

/-- when smol reports a connection, nothing is left to be sent again -/
theorem VStep.nothing_left {v w : View} {o1 o2 : List Obs} {x : Sender} {c : ConnAck} {t : Nat}
    (h : VStep .smol v (o1 ++ .connected c t :: o2) w) (hk : Keeps clean v x) :
    (o1.foldl (Sender.next clean) x).again = [] ∧ (o1.foldl (Sender.next clean) x).rels = [] := by
  obtain ⟨n, r, l, lost, hi, hl⟩ := hk.inv
  have hx := hk.running
  generalize ho : o1 ++ .connected c t :: o2 = o at h
  have hm : Obs.connected c t ∈ o := by rw [← ho]; simp
  have hnw : ∀ (T : Times) (ws : List Packet), Obs.connected c t ∉ wrotes T ws := by
    intro T ws hh; simp [wrotes] at hh
  have hns : ∀ (p : Packet) (b : Bool), Obs.connected c t ∉ shownObs p b := by
    intro p b hh; cases b <;> simp [shownObs] at hh
  cases h
  case established T cn a b c' ps ws sys hr ha ht hc hs hw hall =>
    obtain rfl := hall rfl
    have hrun : x.running = false := hx.trans hr
    obtain ⟨hu, hacc⟩ := hl ha
    obtain ⟨-, -, h1, h2, h3⟩ := hi.connAck_event hs
    have ho1 : o1 = [.wrote (.connect cn) a b, .read (.connAck c'), .delivered (.connAck c')] ++ wrotes T ws := by
      rw [← List.append_assoc] at ho
      rcases List.append_eq_append_iff.mp ho with ⟨a', h1, h2⟩ | ⟨a', h1, h2⟩
      · cases a' with
        | nil => simpa using h1.symm
        | cons y ys =>
          simp only [List.cons_append, List.cons.injEq] at h2
          obtain ⟨rfl, -⟩ := h2
          exfalso
          have : Obs.connected c t ∈ ([.wrote (.connect cn) a b, .read (.connAck c'), .delivered (.connAck c')] ++ wrotes T ws) := by
            rw [h1]; simp
          simp at this
          exact hnw _ _ this
      · cases a' with
        | nil => simpa using h1
        | cons y ys => simp at h2
    rw [ho1, List.foldl_append]
    have hx : [.wrote (.connect cn) a b, .read (.connAck c'), .delivered (.connAck c')].foldl (Sender.next clean) x
        = ({ x with again := [], rels := [] } : Sender).onAccepted clean c' := by
      simp [Sender.next, Sender.onWrote, hrun, hc]
    rw [hx]
    cases hres : Ledger.resumed clean c' with
    | false =>
      have := h2 hres
      subst this
      simp [wrotes, Sender.onAccepted, hres]
    | true =>
      rw [h1 hres]
      simp only [Sender.onAccepted, hres, if_true]
      exact resend_all _ _ _ hu (fun p hp => by obtain ⟨id, -, h1, -⟩ := (hi.live ha).stored p hp; exact h1) (by rw [hacc]; exact h3)
  case connectFailed ho' => rcases ho' with rfl | ⟨_, _, _, rfl⟩ <;> simp at hm
  all_goals simp [hnw, hns] at hm

theorem smol_nothing_left {o : Options} {checks : Bool} {t t' : Nat} {ops : List SmolOp} {pre post : List Obs} {c : ConnAck}
    (h : smolTrace checks o t ops = pre ++ .connected c t' :: post) :
    (sender o.cleanStart pre).again = [] ∧ (sender o.cleanStart pre).rels = [] := by
  obtain ⟨v1, v2, tr1, o1, o2, tr2, h1, h2, -, rfl, -⟩ := (Smol.vrun checks o t ops).split h
  obtain ⟨-, hk⟩ := h1.sends
  have := h2.nothing_left hk
  unfold sender
  rw [List.foldl_append]
  exact this

end Mqrstt
