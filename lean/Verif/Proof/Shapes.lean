import Verif.Proof.SessionRun
import Verif.Model.Net
/-! # Which packets the session and the clients produce -/

namespace Mqrstt

/-- what a client call can put into the queue -/
def Packet.fromUser : Packet → Prop
  | .publish p => p.dup = false
  | .subscribe _ | .unsubscribe _ | .disconnect _ => True
  | _ => False

/-- what is sent again after a resumption -/
def Packet.resent : Packet → Prop
  | .publish p => p.dup = true
  | .pubRel a => ∃ id, a = ⟨id, .success, .empty⟩
  | _ => False

theorem Request.packet_fromUser {r : Request} {id : Option UInt16} {p : Packet} (h : r.packet id = some p) :
    p.fromUser := by
  cases r with
  | publish => simp only [Request.packet, Option.some.injEq] at h; subst h; rfl
  | subscribe => cases id <;> simp [Request.packet] at h; subst h; trivial
  | unsubscribe => cases id <;> simp [Request.packet] at h; subst h; trivial
  | disconnect => simp only [Request.packet, Option.some.injEq] at h; subst h; trivial

theorem State.republish_resent {s : State} {ids : List UInt16} {ps : List Packet} (h : s.republish ids = some ps) :
    ∀ p ∈ ps, p.resent := by
  induction ids generalizing ps with
  | nil => simp only [republish, Option.some.injEq] at h; subst h; simp
  | cons i ids ih =>
    simp only [republish] at h
    split at h
    · simp at h
    · split at h
      · simp at h
      · rename_i e
        simp only [Option.some.injEq] at h
        subst h
        intro p hp
        rcases List.mem_cons.1 hp with rfl | hp
        · rfl
        · exact ih e p hp

theorem State.reset_resent {s s' : State} {b : Bool} {ids ps} (h : s.reset b = (s', .ok (ids, ps))) :
    ∀ p ∈ ps, p.resent := by
  simp only [reset] at h
  split at h
  · split at h
    · simp at h
    · rename_i e
      simp only [Prod.mk.injEq, Except.ok.injEq] at h
      obtain ⟨-, -, rfl⟩ := h
      intro p hp
      rcases List.mem_append.1 hp with hp | hp
      · exact State.republish_resent e p hp
      · obtain ⟨i, -, rfl⟩ := List.mem_map.1 hp
        exact ⟨i, rfl⟩
  · simp only [Prod.mk.injEq, Except.ok.injEq] at h
    obtain ⟨-, -, rfl⟩ := h
    simp

namespace Sys

theorem step_connected_resent {s s' : Sys} {c : ConnAck} {ps} (h : s.step (.connAck c) = some (s', .connected c ps)) :
    ∀ p ∈ ps, p.resent := by
  simp only [step] at h
  split at h
  · split at h <;> simp only [Option.some.injEq, Prod.mk.injEq, reduceCtorEq, and_false, Event.connected.injEq, true_and] at h
    rename_i e
    obtain ⟨-, rfl⟩ := h
    simp only [Handler.connAck] at e
    split at e
    · split at e
      · simp at e
      · rename_i e1
        split at e
        · simp at e
        · simp only [Prod.mk.injEq, Except.ok.injEq, Option.some.injEq] at e
          obtain ⟨-, rfl⟩ := e
          exact State.reset_resent e1
    · simp at e
  · simp at h

/-- a reply to a received packet, and whether the handler sees the packet -/
inductive Answer : Packet → Option Packet → Bool → Prop where
  | qos0 {p : Publish} (h : p.qos = .atMostOnce) : Answer (.publish p) none true
  | qos1 {p : Publish} {id} (h : p.qos = .atLeastOnce) (hid : p.pkid = some id) :
      Answer (.publish p) (some (.pubAck ⟨id, .success, .empty⟩)) true
  | qos2 {p : Publish} {id shown} (h : p.qos = .exactlyOnce) (hid : p.pkid = some id) :
      Answer (.publish p) (some (.pubRec ⟨id, .success, .empty⟩)) shown
  | pubAck {a} : Answer (.pubAck a) none true
  | pubRec {a} : Answer (.pubRec a) none true
  | pubRecOk {a} : Answer (.pubRec a) (some (.pubRel ⟨a.id, .success, .empty⟩)) true
  | pubRel {a} : Answer (.pubRel a) (some (.pubComp ⟨a.id, .success, .empty⟩)) true
  | pubComp {a} : Answer (.pubComp a) none true
  | subAck {a} : Answer (.subAck a) none true
  | unsubAck {a} : Answer (.unsubAck a) none true

theorem release_none {s s' : State} {id : UInt16} {r} (h : Handler.release s id = (s', .ok r)) : r = none := by
  simp only [Handler.release] at h
  split at h <;> simp at h
  exact h.2.symm

theorem shown_ok {r : State × Except HFail (Option Packet)} {s' reply sh}
    (h : Handler.shown r = (s', .ok (reply, sh))) : sh = true ∧ r = (s', .ok reply) := by
  obtain ⟨a, b⟩ := r
  cases b <;> simp [Handler.shown] at h ⊢
  simp [h]

theorem step_answer {s s' : Sys} {p : Packet} {reply shown}
    (h : s.step (.receive p) = some (s', .received p reply shown)) : Answer p reply shown := by
  simp only [step] at h
  split at h
  · split at h <;> simp only [Option.some.injEq, Prod.mk.injEq, reduceCtorEq, and_false, Event.received.injEq, true_and] at h
    rename_i hd rp sh e
    obtain ⟨-, rfl, rfl⟩ := h
    simp only [Handler.incoming] at e
    generalize hx : Handler.incomingState s.handler.state p = x at e
    obtain ⟨st, r⟩ := x
    simp only [Prod.mk.injEq] at e
    obtain ⟨-, rfl⟩ := e
    cases p <;> simp only [Handler.incomingState, Prod.mk.injEq, reduceCtorEq, and_false] at hx
    case publish p =>
      simp only [Handler.incomingPublish] at hx
      split at hx
      · rename_i hq
        simp only [Prod.mk.injEq, Except.ok.injEq] at hx
        obtain ⟨-, rfl, rfl⟩ := hx
        exact .qos0 hq
      · rename_i hq
        split at hx <;> simp only [Prod.mk.injEq, Except.ok.injEq, reduceCtorEq, and_false] at hx
        obtain ⟨-, rfl, rfl⟩ := hx
        exact .qos1 hq ‹_›
      · rename_i hq
        split at hx <;> simp only [Prod.mk.injEq, Except.ok.injEq, reduceCtorEq, and_false] at hx
        obtain ⟨-, rfl, rfl⟩ := hx
        exact .qos2 hq ‹_›
    case pubAck a =>
      obtain ⟨rfl, hy⟩ := shown_ok hx
      clear hx
      simp only [Handler.incomingPubAck] at hy
      split at hy <;> first | (simp at hy; done) | (cases release_none hy; exact .pubAck)
    case pubRec a =>
      obtain ⟨rfl, hy⟩ := shown_ok hx
      clear hx
      simp only [Handler.incomingPubRec] at hy
      repeat' split at hy
      all_goals simp only [Prod.mk.injEq, Except.ok.injEq, reduceCtorEq, and_false] at hy
      all_goals obtain ⟨-, rfl⟩ := hy
      · exact .pubRecOk
      · exact .pubRec
    case pubRel a =>
      obtain ⟨rfl, hy⟩ := shown_ok hx
      clear hx
      simp only [Handler.incomingPubRel, Prod.mk.injEq, Except.ok.injEq] at hy
      obtain ⟨-, rfl⟩ := hy
      exact .pubRel
    case pubComp a =>
      obtain ⟨rfl, hy⟩ := shown_ok hx
      clear hx
      simp only [Handler.incomingPubComp] at hy
      split at hy <;> first | (simp at hy; done) | (cases release_none hy; exact .pubComp)
    case subAck a =>
      obtain ⟨rfl, hy⟩ := shown_ok hx
      clear hx
      simp only [Handler.incomingSubAck] at hy
      split at hy <;> first | (simp at hy; done) | (cases release_none hy; exact .subAck)
    case unsubAck a =>
      obtain ⟨rfl, hy⟩ := shown_ok hx
      clear hx
      simp only [Handler.incomingUnsubAck] at hy
      split at hy <;> first | (simp at hy; done) | (cases release_none hy; exact .unsubAck)
  · simp at h

end Sys
end Mqrstt
