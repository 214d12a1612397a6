import Verif.Proof.Written
import Verif.Proof.Origin
import Verif.Proof.Connects
/-! # Everything that is ever written, also in histories in which `run` is dropped in the middle of its work -/

namespace Mqrstt
open Mqrstt.Spec Mqrstt.Props _root_.Spec

/-! ## what the session stores -/

theorem release_slots (s : State) (id : UInt16) : (Handler.release s id).1.slots = s.slots := by
  simp only [Handler.release, State.makePkidAvailable]
  split <;> rfl

theorem removeOutgoingPub_slots (s : State) (id : UInt16) (q : Publish) (h : some q ∈ (s.removeOutgoingPub id).1.slots) :
    some q ∈ s.slots := by
  simp only [State.removeOutgoingPub] at h
  split at h
  · exact h
  · split at h
    · rcases List.mem_or_eq_of_mem_set h with h | h
      · exact h
      · cases h
    · exact h

theorem incomingState_slots (s : State) (p : Packet) (q : Publish) (h : some q ∈ (Handler.incomingState s p).1.slots) :
    some q ∈ s.slots := by
  have shown : ∀ r, (Handler.shown r).1 = r.1 := by
    rintro ⟨s, r⟩
    cases r <;> rfl
  cases p <;> simp only [Handler.incomingState, shown] at h <;> try exact h
  case publish p =>
    simp only [Handler.incomingPublish] at h
    repeat' split at h
    all_goals exact h
  case pubAck a =>
    simp only [Handler.incomingPubAck] at h
    split at h
    · exact removeOutgoingPub_slots s a.id q h
    · rw [release_slots] at h
      exact removeOutgoingPub_slots s a.id q h
    · exact removeOutgoingPub_slots s a.id q h
  case pubRec a =>
    simp only [Handler.incomingPubRec] at h
    split at h
    · exact removeOutgoingPub_slots s a.id q h
    · split at h <;> exact removeOutgoingPub_slots s a.id q h
    · exact removeOutgoingPub_slots s a.id q h
  case pubComp a =>
    simp only [Handler.incomingPubComp] at h
    split at h
    · rw [release_slots] at h; exact h
    · exact h
  case subAck a =>
    simp only [Handler.incomingSubAck] at h
    split at h
    · rw [release_slots] at h; exact h
    · exact h
  case unsubAck a =>
    simp only [Handler.incomingUnsubAck] at h
    split at h
    · rw [release_slots] at h; exact h
    · exact h

theorem outgoingState_slots (s : State) (p : Packet) (q : Publish) (h : some q ∈ (Handler.outgoingState s p).1.slots) :
    some q ∈ s.slots ∨ p = .publish q := by
  cases p <;> simp only [Handler.outgoingState] at h <;> try exact .inl h
  case publish p =>
    simp only [Handler.outgoingPublish, State.addOutgoingPub] at h
    repeat' split at h
    all_goals first
      | exact .inl h
      | (rcases List.mem_or_eq_of_mem_set h with h | h
         · exact .inl h
         · cases h; exact .inr rfl)

theorem freeAll_slots (ids : List UInt16) : ∀ s : State, (Handler.freeAll s ids).1.slots = s.slots := by
  induction ids with
  | nil => intro s; rfl
  | cons id ids ih =>
    intro s
    simp only [Handler.freeAll]
    split
    · rename_i e
      simp only [State.makePkidAvailable] at e
      obtain ⟨rfl, -⟩ := Prod.mk.inj e
      rfl
    · rename_i e
      simp only [State.makePkidAvailable] at e
      rw [ih]
      obtain ⟨rfl, -⟩ := Prod.mk.inj e
      rfl

theorem reset_slots (s : State) (r : Bool) (q : Publish) (h : some q ∈ (s.reset r).1.slots) : some q ∈ s.slots := by
  simp only [State.reset] at h
  repeat' split at h
  · exact h
  · exact h
  · simp at h

theorem connAck_slots (h : Handler) (c : ConnAck) (q : Publish) (hm : some q ∈ (h.connAck c).1.state.slots) :
    some q ∈ h.state.slots := by
  simp only [Handler.connAck] at hm
  split at hm
  · have key := reset_slots h.state (c.sessionPresent && !h.cleanStart) q
    split at hm
    · rename_i e
      rw [e] at key
      exact key hm
    · rename_i s ids ps e
      rw [e] at key
      have hf := freeAll_slots ids s
      split at hm
      · rename_i e'
        rw [e'] at hf
        exact key (hf ▸ hm)
      · rename_i e'
        rw [e'] at hf
        exact key (hf ▸ hm)
  · exact hm

theorem Sys.step_stored {s s' : Sys} {op : Op} {e : Event} (h : s.step op = some (s', e)) (q : Publish)
    (hq : some q ∈ s'.handler.state.slots) : some q ∈ s.handler.state.slots ∨ .publish q ∈ s.queue := by
  cases op with
  | call r =>
    rcases call_cases h with ⟨t, id', ht, hw⟩ | ⟨rfl, -, -⟩
    · have hs : t.handler.state.slots = s.handler.state.slots := by
        cases ht <;> (rename_i ht; subst ht; rfl)
      obtain ⟨p', -, ⟨rfl, rfl, -⟩ | ⟨rfl, -⟩⟩ := callWith_cases hw
      · exact .inl (hs ▸ hq)
      · exact .inl (hs ▸ hq)
    · exact .inl hq
  | write ok =>
    simp only [Sys.step] at h
    split at h
    · split at h
      · simp at h
      · rename_i x rest hx
        cases ok
        · simp only [Bool.false_eq_true, if_false, Option.some.injEq, Prod.mk.injEq] at h
          obtain ⟨rfl, -⟩ := h
          exact .inl hq
        · have key := outgoingState_slots s.handler.state x q
          simp only [if_true, Handler.outgoing] at h
          split at h <;> rename_i hh <;>
            (simp only [Prod.mk.injEq] at hh
             obtain ⟨rfl, -⟩ := hh
             simp only [Option.some.injEq, Prod.mk.injEq] at h
             obtain ⟨rfl, -⟩ := h
             rcases key hq with h | rfl
             · exact .inl h
             · exact .inr (by simp [hx]))
    · simp at h
  | receive x =>
    have key := incomingState_slots s.handler.state x q
    simp only [Sys.step, Handler.incoming] at h
    split at h
    · split at h <;> rename_i hh <;>
        (simp only [Prod.mk.injEq] at hh
         obtain ⟨rfl, -⟩ := hh
         simp only [Option.some.injEq, Prod.mk.injEq] at h
         obtain ⟨rfl, -⟩ := h
         exact .inl (key hq))
    · simp at h
  | connAck c =>
    have key := connAck_slots s.handler c q
    simp only [Sys.step] at h
    split at h
    · split at h <;> rename_i hh <;>
        (rw [hh] at key
         simp only [Option.some.injEq, Prod.mk.injEq] at h
         obtain ⟨rfl, -⟩ := h
         exact .inl (key hq))
    · simp at h
  | _ =>
    simp only [Sys.step] at h
    repeat' split at h
    all_goals first
      | (simp at h; done)
      | (simp only [Option.some.injEq, Prod.mk.injEq] at h
         obtain ⟨rfl, -⟩ := h
         exact .inl hq)

theorem stored_mem {s : State} {id : UInt16} {p : Publish} (h : s.stored id = some p) : some p ∈ s.slots := by
  simp only [State.stored] at h
  split at h
  · cases h
  · rename_i i hi
    cases e : s.slots[i]? with
    | none => simp [e] at h
    | some x =>
      simp only [e, Option.join_some] at h
      subst h
      exact List.mem_of_getElem? e

theorem republish_mem {s : State} : ∀ {ids : List UInt16} {ps : List Packet}, s.republish ids = some ps →
    ∀ x ∈ ps, ∃ q, some q ∈ s.slots ∧ x = .publish { q with dup := true }
  | [], ps, h => by simp only [State.republish, Option.some.injEq] at h; subst h; simp
  | id :: ids, ps, h => by
    simp only [State.republish] at h
    split at h
    · cases h
    · rename_i p hp
      split at h
      · cases h
      · rename_i ps' hps
        simp only [Option.some.injEq] at h
        subst h
        intro x hx
        simp only [List.mem_cons] at hx
        rcases hx with rfl | hx
        · exact ⟨p, stored_mem hp, rfl⟩
        · exact republish_mem hps x hx

theorem Sys.step_connected_stored {s s' : Sys} {c : ConnAck} {ps : List Packet} (h : s.step (.connAck c) = some (s', .connected c ps)) :
    ∀ x ∈ ps, (∃ q, some q ∈ s.handler.state.slots ∧ x = .publish { q with dup := true }) ∨
      ∃ id, x = .pubRel ⟨id, .success, .empty⟩ := by
  simp only [Sys.step] at h
  split at h
  · split at h <;> rename_i hh <;> simp only [Option.some.injEq, Prod.mk.injEq, reduceCtorEq, and_false, Event.connected.injEq, true_and] at h
    obtain ⟨-, rfl⟩ := h
    rename_i ps
    simp only [Handler.connAck] at hh
    split at hh
    · split at hh
      · simp at hh
      · rename_i ids ps' e
        have : ps' = ps := by
          split at hh
          · simp at hh
          · simp only [Prod.mk.injEq, Except.ok.injEq, Option.some.injEq] at hh; exact hh.2
        subst this
        simp only [State.reset] at e
        split at e
        · split at e
          · simp at e
          · rename_i pubs hp
            simp only [Prod.mk.injEq, Except.ok.injEq] at e
            obtain ⟨-, -, rfl⟩ := e
            intro x hx
            simp only [List.mem_append, List.mem_map] at hx
            rcases hx with hx | ⟨id, -, rfl⟩
            · exact .inl (republish_mem hp x hx)
            · exact .inr ⟨id, rfl⟩
        · simp only [Prod.mk.injEq, Except.ok.injEq] at e
          obtain ⟨-, -, rfl⟩ := e
          simp
    · simp at hh
  · simp at h

/-! ## everything that waits or is stored has a property -/

structure Holds (P : Packet → Prop) (s : Sys) : Prop where
  waiting : ∀ p, p ∈ s.pending ∨ p ∈ s.queue → P p
  stored : ∀ q, some q ∈ s.handler.state.slots → P (.publish q)

theorem Holds.init (P : Packet → Prop) (o : Options) : Holds P o.sys := by
  constructor <;> simp [Options.sys, Sys.init, State.new]

theorem Holds.step {P : Packet → Prop} {s s' : Sys} {op : Op} {e : Event} (hP : Holds P s) (h : s.step op = some (s', e))
    (hc : ∀ q id p, e = .called q id p → P p) : Holds P s' := by
  constructor
  · intro p hp
    rcases Sys.step_waiting h p hp with h' | ⟨q, id, -, rfl⟩
    · exact hP.waiting p h'
    · exact hc _ _ _ rfl
  · intro q hq
    rcases Sys.step_stored h q hq with h' | h'
    · exact hP.stored q h'
    · exact hP.waiting _ (.inr h')

/-- what the client may write without being asked -/
structure Closed (P : Packet → Prop) : Prop where
  copy : ∀ q : Publish, P (.publish q) → P (.publish { q with dup := true })
  pubAck : ∀ id, P (.pubAck ⟨id, .success, .empty⟩)
  pubRec : ∀ id, P (.pubRec ⟨id, .success, .empty⟩)
  pubRel : ∀ id, P (.pubRel ⟨id, .success, .empty⟩)
  pubComp : ∀ id, P (.pubComp ⟨id, .success, .empty⟩)
  pingReq : P .pingReq
  timeout : P keepAliveDisconnect

theorem answer_closed {P : Packet → Prop} (hC : Closed P) {p : Packet} {r : Option Packet} {b : Bool} (h : Sys.Answer p r b) :
    ∀ x ∈ r, P x := by
  cases h <;> simp [hC.pubAck, hC.pubRec, hC.pubRel, hC.pubComp]

theorem VStep.held {fl v obs w} {P : Packet → Prop} (hC : Closed P) (hP : Holds P v.sys) (h : VStep fl v obs w) :
    ∀ x a b, .wrote x a b ∈ obs → (∃ c, x = .connect c) ∨ P x := by
  have taken : ∀ {p : Packet} {sys : Sys} {e : Event}, v.sys.step (.write true) = some (sys, e) →
      (e = .written p ∨ ∃ er, e = .writtenError p er) → P p := by
    intro p sys e hs he
    obtain ⟨p', rest, hq, ⟨-, h' | ⟨_, h'⟩ | h'⟩ | ⟨h', -⟩⟩ := Sys.step_write_event hs
    all_goals first | (rcases he with he | ⟨_, he⟩ <;> rw [he] at h' <;> cases h') | cases h'
    all_goals exact hP.waiting _ (.inr (by simp [hq]))
  have again : ∀ {c : ConnAck} {ps ws : List Packet} {sys : Sys} {x : Packet}, v.sys.step (.connAck c) = some (sys, .connected c ps) →
      ws.Sublist ps → x ∈ ws → P x := by
    intro c ps ws sys x hs hw hx
    rcases Sys.step_connected_stored hs x (hw.subset hx) with ⟨q, hq, rfl⟩ | ⟨id, rfl⟩
    · exact hC.copy q (hP.stored q hq)
    · exact hC.pubRel id
  intro x a b hm
  cases h
  case accepted hR hp hs =>
    rename_i p _ reply shown
    have ha := answer_closed hC (Sys.step_answer hs)
    simp only [List.mem_append, wrotes, List.mem_map, Option.mem_toList, Obs.wrote.injEq] at hm
    rcases hm with hm | ⟨y, hy, rfl, -⟩
    · cases shown <;> simp [shownObs] at hm
    · exact .inr (ha _ hy)
  case acceptedFail =>
    rename_i shown _ _ _ _ _
    cases shown <;> simp [shownObs] at hm
  case connectFailed ho =>
    rcases ho with rfl | ⟨_, _, _, rfl⟩ <;> simp at hm
    exact .inl ⟨_, hm.1⟩
  case established hs hw _ =>
    simp [wrotes] at hm
    rcases hm with ⟨rfl, -⟩ | ⟨y, hy, rfl, -⟩
    · exact .inl ⟨_, rfl⟩
    · exact .inr (again hs hw hy)
  case establishFail hs hw hnone =>
    simp [wrotes] at hm
    rcases hm with ⟨rfl, -⟩ | ⟨y, hy, rfl, -⟩
    · exact .inl ⟨_, rfl⟩
    · exact .inr (again hs hw hy)
  case outOk hR hs _ => simp at hm; rw [hm.1]; exact .inr (taken hs (.inl rfl))
  case outDisc hR hs _ => simp at hm; rw [hm.1]; exact .inr (taken hs (.inl rfl))
  case outErr hR hs => simp at hm; rw [hm.1]; exact .inr (taken hs (.inr ⟨_, rfl⟩))
  case outPanic hR hq hs => simp at hm; rw [hm.1]; exact .inr (hP.waiting _ (.inr (by simp [hq])))
  case pingReq => simp at hm; rw [hm.1]; exact .inr hC.pingReq
  case timeout => simp at hm; rw [hm.1]; exact .inr hC.timeout
  case idleTimeout => simp at hm; rw [hm.1]; exact .inr hC.timeout
  case refused => simp at hm; exact .inl ⟨_, hm.1⟩
  case notConnAck => simp at hm; exact .inl ⟨_, hm.1⟩
  case connectCrashed => simp at hm; exact .inl ⟨_, hm.1⟩
  case establishErr => simp at hm; exact .inl ⟨_, hm.1⟩
  case establishPanic => simp at hm; exact .inl ⟨_, hm.1⟩
  all_goals simp at hm

/-- the session makes one step or none; a call that is made is seen -/
theorem VStep.sys {fl v obs w} (h : VStep fl v obs w) :
    w.sys = v.sys ∨ ∃ op e, v.sys.step op = some (w.sys, e) ∧ ∀ q id p, e = .called q id p → .user (.called q id p) ∈ obs := by
  cases h
  case client hc hs => exact .inr ⟨_, _, hs, by rintro q id p rfl; simp⟩
  case drop hs => exact .inr ⟨_, _, hs, by rintro q id p rfl; simp⟩
  case crashed h => exact .inr ⟨.dropNetwork, .networkDropped, by simp [Sys.step, View.finish, h.alive], by rintro q id p h; cases h⟩
  case connectCrashed ha _ => exact .inr ⟨.dropNetwork, .networkDropped, by simp [Sys.step, ha], by rintro q id p h; cases h⟩
  case accepted hs => exact .inr ⟨_, _, hs, by rintro q id p h; cases h⟩
  case acceptedFail hs => exact .inr ⟨_, _, hs, by rintro q id p h; cases h⟩
  case refusedPacket hs => exact .inr ⟨_, _, hs, by rintro q id p h; cases h⟩
  case readPanic hs => exact .inr ⟨_, _, hs, by rintro q id p h; cases h⟩
  case outFail hs => exact .inr ⟨_, _, hs, by rintro q id p h; cases h⟩
  case outOk hs _ => exact .inr ⟨_, _, hs, by rintro q id p h; cases h⟩
  case outDisc hs _ => exact .inr ⟨_, _, hs, by rintro q id p h; cases h⟩
  case outErr hs => exact .inr ⟨_, _, hs, by rintro q id p h; cases h⟩
  case outPanic hs => exact .inr ⟨_, _, hs, by rintro q id p h; cases h⟩
  case established hs _ _ => exact .inr ⟨_, _, hs, by rintro q id p h; cases h⟩
  case establishFail hs _ _ => exact .inr ⟨_, _, hs, by rintro q id p h; cases h⟩
  case establishErr hs => exact .inr ⟨_, _, hs, by rintro q id p h; cases h⟩
  case establishPanic hs => exact .inr ⟨_, _, hs, by rintro q id p h; cases h⟩
  all_goals exact .inl rfl

end Mqrstt
