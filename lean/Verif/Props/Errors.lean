import Verif.Props.Session
import Verif.Proof.Receiver
/-!
# Packets the client did not ask for (C32, C33, C34)
-/

namespace Mqrstt.Props
open Mqrstt Spec

/-! ## C32 -/

/-- the acknowledgement answers an outstanding operation of its kind -/
inductive Solicited (l : Ledger) : Packet → Prop
  | pubAck (a : Ack) (p : Publish) (h : p ∈ l.unacked) (hid : p.pkid = some a.id) (hq : p.qos = .atLeastOnce) :
      Solicited l (.pubAck a)
  | pubRec (a : Ack) (p : Publish) (h : p ∈ l.unacked) (hid : p.pkid = some a.id) (hq : p.qos = .exactlyOnce) :
      Solicited l (.pubRec a)
  | pubComp (a : Ack) (h : a.id ∈ l.accepted) : Solicited l (.pubComp a)
  | subAck (a : CodesAck) (h : a.id ∈ l.subscribes) : Solicited l (.subAck a)
  | unsubAck (a : CodesAck) (h : a.id ∈ l.unsubscribes) : Solicited l (.unsubAck a)

/-- the identifier of a PUBACK, PUBREC, PUBCOMP, SUBACK or UNSUBACK -/
def ackId : Packet → Option UInt16
  | .pubAck a => some a.id
  | .pubRec a => some a.id
  | .pubComp a => some a.id
  | .subAck a => some a.id
  | .unsubAck a => some a.id
  | _ => none

/-- **C32**, the part that holds: an unsolicited acknowledgement is an error naming its identifier and type and
changes nothing at all. Missing: a PUBACK or PUBREC for a publish of the other QoS, and a PUBACK or PUBREC with
identifier 0 or above the receive maximum (which crash, C34). -/
theorem C32_unsolicited_partial (cfg : Config) (ops : List Op) (hnet : (client cfg ops).alive = true) (p : Packet)
    (id : UInt16) (hid : ackId p = some id) (hun : ¬ Solicited (ledger cfg ops) p)
    (hpub : p.type = .pubAck ∨ p.type = .pubRec →
      (1 ≤ id.toNat ∧ id.toNat ≤ cfg.recvMax.toNat) ∧ ∀ q ∈ (ledger cfg ops).unacked, q.pkid ≠ some id) :
    (client cfg ops).step (.receive p) = some (client cfg ops, .receivedError p (.unsolicited id p.type)) := by
  have hi := inv cfg ops
  have hnot : (∀ q ∈ (ledger cfg ops).unacked, q.pkid ≠ some id) → id ∉ (ledger cfg ops).publishIds := by
    intro h hm
    obtain ⟨q, hq, hqi⟩ := List.mem_filterMap.mp hm
    exact h q hq hqi
  cases p with
  | pubAck a =>
    obtain rfl : a.id = id := Option.some.inj hid
    obtain ⟨⟨h1, h2⟩, h3⟩ := hpub (.inl rfl)
    exact hi.pubAck_unknown hnet h1 h2 (hnot h3)
  | pubRec a =>
    obtain rfl : a.id = id := Option.some.inj hid
    obtain ⟨⟨h1, h2⟩, h3⟩ := hpub (.inr rfl)
    exact hi.pubRec_unknown hnet h1 h2 (hnot h3)
  | pubComp a =>
    obtain rfl : a.id = id := Option.some.inj hid
    exact hi.pubComp_unknown hnet (fun h => hun (.pubComp a h))
  | subAck a =>
    obtain rfl : a.id = id := Option.some.inj hid
    exact hi.subAck_unknown hnet (fun h => hun (.subAck a h))
  | unsubAck a =>
    obtain rfl : a.id = id := Option.some.inj hid
    exact hi.unsubAck_unknown hnet (fun h => hun (.unsubAck a h))
  | _ => simp [ackId] at hid

/-- **C32 is violated** by acknowledgements of the wrong kind: a PUBACK for a QoS 2 publish is accepted and frees its
identifier, a PUBREC for a QoS 1 publish is accepted and answered. -/
theorem C32_wrong_kind_violated :
    (∃ s', ¬ Solicited (ledger demo (sendOps (demoPublish .exactlyOnce))) (.pubAck ⟨1, .success, .empty⟩) ∧
      (client demo (sendOps (demoPublish .exactlyOnce))).step (.receive (.pubAck ⟨1, .success, .empty⟩)) =
        some (s', .received (.pubAck ⟨1, .success, .empty⟩) none true) ∧
      1 ∉ (client demo (sendOps (demoPublish .exactlyOnce))).pool.queue ∧ 1 ∈ s'.pool.queue) ∧
    (∃ s', ¬ Solicited (ledger demo (sendOps (demoPublish .atLeastOnce))) (.pubRec ⟨1, .success, .empty⟩) ∧
      (client demo (sendOps (demoPublish .atLeastOnce))).step (.receive (.pubRec ⟨1, .success, .empty⟩)) =
        some (s', .received (.pubRec ⟨1, .success, .empty⟩) (some (.pubRel ⟨1, .success, .empty⟩)) true)) := by
  refine ⟨⟨_, ?_, rfl, by decide, by decide⟩, ⟨_, ?_, rfl⟩⟩
  · intro h
    cases h with
    | pubAck _ p h hid hq =>
      have : p = ⟨false, .exactlyOnce, false, ⟨[116], by decide⟩, some 1, .empty, [1, 2, 3]⟩ := by
        simpa using (show p ∈ [_] from h)
      subst this
      simp at hq
  · intro h
    cases h with
    | pubRec _ p h hid hq =>
      have : p = ⟨false, .atLeastOnce, false, ⟨[116], by decide⟩, some 1, .empty, [1, 2, 3]⟩ := by
        simpa using (show p ∈ [_] from h)
      subst this
      simp at hq

/-- a second PUBACK for the same publish; another publish is outstanding -/
example :
    let ops := sendOps (demoPublish .atLeastOnce) ++ sendOps (demoPublish .atLeastOnce) ++ [.receive (.pubAck ⟨1, .success, .empty⟩)]
    ackId (.pubAck ⟨1, .success, .empty⟩) = some 1 ∧ (client demo ops).alive = true ∧
      (ledger demo ops).publishIds = [2] ∧ 1 ≤ demo.recvMax.toNat := by decide

/-! ## C33 -/

/-- the packets a server must not send on an established connection -/
def FromClientOnly (p : Packet) : Prop :=
  p.type = .connect ∨ p.type = .connAck ∨ p.type = .subscribe ∨ p.type = .unsubscribe ∨ p.type = .pingReq ∨ p.type = .auth

/-- **C33.** In every state such a packet is an error naming its type; nothing changes, nothing is sent, the handler does
not see it. -/
theorem C33_unexpected (s : Sys) (hnet : s.alive = true) (p : Packet) (h : FromClientOnly p) :
    s.step (.receive p) = some (s, .receivedError p (.unexpectedPacket p.type)) := by
  rw [Sys.step_receive hnet]
  cases p <;> first | rfl | simp [FromClientOnly, Packet.type] at h

/-- PUBLISH, the five acknowledgements and PUBREL are never reported this way -/
theorem C33_only_unexpected (s s' : Sys) (p : Packet) (t : PacketType)
    (h : s.step (.receive p) = some (s', .receivedError p (.unexpectedPacket t))) :
    t = p.type ∧ (FromClientOnly p ∨ p.type = .pingResp ∨ p.type = .disconnect) := by
  have ha : s.alive = true := by
    cases ha : s.alive with
    | true => rfl
    | false => simp [Sys.step, ha] at h
  rw [Sys.step_receive ha] at h
  have hrel : ∀ st id st2 e, Handler.shown (Handler.release st id) = (st2, .error (.err e)) → e = .packetIdChannelError id := by
    intro st id st2 e hh
    simp only [Handler.release, State.makePkidAvailable, Pool.markAvailable] at hh
    split at hh <;> rename_i heq
    · split at heq
      · simp only [Prod.mk.injEq, Except.error.injEq] at heq
        simp [Handler.shown] at hh
        grind
      · split at heq <;> grind [Handler.shown]
    · simp [Handler.shown] at hh
  cases p with
  | publish p =>
    exfalso
    simp only [Handler.incomingState, Handler.incomingPublish] at h
    cases hq : p.qos <;> cases hk : p.pkid <;> simp [hq, hk] at h
  | pubAck a =>
    exfalso
    simp only [Handler.incomingState, Handler.incomingPubAck] at h
    rcases State.removeOutgoingPub_eq s.handler.state a.id with ⟨_, hr⟩ | ⟨i, _, hn, hr⟩ | ⟨i, q, hiq, hs, hr⟩
    · rw [hr] at h; simp [Handler.shown] at h
    · rw [hr] at h; simp [Handler.shown] at h
    · rw [hr] at h
      simp only at h
      generalize hg : Handler.shown (Handler.release _ a.id) = y at h
      obtain ⟨st2, res⟩ := y
      rcases res with (e | _) | ⟨r, b⟩ <;> simp at h
      have := hrel _ _ _ _ hg
      rw [this] at h
      simp at h
  | pubRec a =>
    exfalso
    simp only [Handler.incomingState, Handler.incomingPubRec] at h
    rcases State.removeOutgoingPub_eq s.handler.state a.id with ⟨_, hr⟩ | ⟨i, _, hn, hr⟩ | ⟨i, q, hiq, hs, hr⟩
    · rw [hr] at h; simp [Handler.shown] at h
    · rw [hr] at h; simp [Handler.shown] at h
    · rw [hr] at h
      simp only at h
      by_cases hacc : a.reason = .success ∨ a.reason = .noMatchingSubscribers
      · simp [if_pos hacc, Handler.shown] at h
      · simp [if_neg hacc, Handler.shown] at h
  | pubRel a => simp [Handler.incomingState, Handler.incomingPubRel, Handler.shown] at h
  | pubComp a =>
    exfalso
    simp only [Handler.incomingState, Handler.incomingPubComp] at h
    generalize State.removeOutgoingRel s.handler.state a.id = x at h
    obtain ⟨st, was⟩ := x
    cases was with
    | false => simp [Handler.shown] at h
    | true =>
      simp only [if_true] at h
      generalize hg : Handler.shown (Handler.release _ a.id) = y at h
      obtain ⟨st2, res⟩ := y
      rcases res with (e | _) | ⟨r, b⟩ <;> simp at h
      have := hrel _ _ _ _ hg
      rw [this] at h
      simp at h
  | subAck a =>
    exfalso
    simp only [Handler.incomingState, Handler.incomingSubAck] at h
    generalize State.removeOutgoingSub s.handler.state a.id = x at h
    obtain ⟨st, was⟩ := x
    cases was with
    | false => simp [Handler.shown] at h
    | true =>
      simp only [if_true] at h
      generalize hg : Handler.shown (Handler.release _ a.id) = y at h
      obtain ⟨st2, res⟩ := y
      rcases res with (e | _) | ⟨r, b⟩ <;> simp at h
      have := hrel _ _ _ _ hg
      rw [this] at h
      simp at h
  | unsubAck a =>
    exfalso
    simp only [Handler.incomingState, Handler.incomingUnsubAck] at h
    generalize State.removeOutgoingUnsub s.handler.state a.id = x at h
    obtain ⟨st, was⟩ := x
    cases was with
    | false => simp [Handler.shown] at h
    | true =>
      simp only [if_true] at h
      generalize hg : Handler.shown (Handler.release _ a.id) = y at h
      obtain ⟨st2, res⟩ := y
      rcases res with (e | _) | ⟨r, b⟩ <;> simp at h
      have := hrel _ _ _ _ hg
      rw [this] at h
      simp at h
  | _ =>
    simp only [Handler.incomingState, Option.some.injEq, Prod.mk.injEq, Event.receivedError.injEq,
      HErr.unexpectedPacket.injEq, true_and] at h
    exact ⟨h.2.symm, by simp [FromClientOnly, Packet.type]⟩

example : (client demo []).alive = true ∧ FromClientOnly .pingReq := ⟨rfl, by simp [FromClientOnly, Packet.type]⟩

/-! ## C34 -/

/-- a server that only sends PUBACK and PUBREC for identifiers within the receive maximum -/
def PoliteServer (cfg : Config) (ops : List Op) : Prop :=
  ∀ a, .receive (.pubAck a) ∈ ops ∨ .receive (.pubRec a) ∈ ops → 1 ≤ a.id.toNat ∧ a.id.toNat ≤ cfg.recvMax.toNat

/-- **C34**, the part that holds: if the send maximum does not exceed the receive maximum and the server's PUBACKs
and PUBRECs carry identifiers from 1 to the receive maximum, no history panics. Missing: the other cases, all
of which panic. -/
theorem C34_no_panic_partial (cfg : Config) (ops : List Op) (hmax : cfg.sendMax ≤ cfg.recvMax)
    (hserver : PoliteServer cfg ops) : Event.panicked ∉ events cfg ops := by
  intro hm
  obtain ⟨h1, h3, hist⟩ := List.append_of_mem hm
  obtain ⟨ops1, op, s', ops2, e1, e2, e3, rfl⟩ := Sys.run_split ops _ h1 hist
  have hi := inv cfg ops1
  have hfatal := hi.step_panicked (s' := s') e2
  cases hfatal with
  | ack a p hp h =>
    have := hserver a (by rcases hp with rfl | rfl <;> simp)
    rcases h with h | h
    · rw [h] at this; exact absurd this.1 (by decide)
    · omega
  | publish p id rest hq hid h =>
    have ha : (client cfg ops1).alive = true := by
      cases ha : (client cfg ops1).alive with
      | true => rfl
      | false =>
        have e2' : (client cfg ops1).step (.write true) = _ := e2
        simp [Sys.step, ha] at e2'
    obtain ⟨failed, hf⟩ := (hi.live ha).queued
    have h1 := hf id
    rw [hq, count_filterMap_cons] at h1
    have hident : Packet.ident (.publish p) = some id := hid
    rw [hident, ind_self] at h1
    have hids : id ∈ (ledger cfg ops1).ids := by
      have : id ∈ (ledger cfg ops1).queued := List.count_pos_iff.mp (by omega)
      simp [Ledger.ids, this]
    have h2 : id ∈ (Pool.new cfg.sendMax).queue := by
      have h3 := hi.cnt id
      have h4 := List.count_pos_iff.mpr hids
      exact List.count_pos_iff.mp (by omega)
    have h3 := ((Pool.mem_new _ _).mp h2).2
    have h4 : cfg.sendMax.toNat ≤ cfg.recvMax.toNat := hmax
    omega

/-- **C34 is violated** in three ways: a PUBACK with identifier 0 (four bytes from the server crash every client), a
PUBREC with an identifier above the receive maximum, and an own publish whose identifier is above the receive
maximum because the send maximum is larger. -/
theorem C34_panic_violated :
    (∃ p, (Packet.read [0x40, 0x02, 0x00, 0x00]).1 = .ok p ∧
      ∀ cfg ops, (client cfg ops).alive = true → ∃ s', (client cfg ops).step (.receive p) = some (s', .panicked)) ∧
    (∀ cfg ops, (client cfg ops).alive = true → ∀ a : Ack, cfg.recvMax.toNat < a.id.toNat →
      ∃ s', (client cfg ops).step (.receive (.pubRec a)) = some (s', .panicked)) ∧
    .panicked ∈ events ⟨2, 1, 1000, false⟩ (sendOps (demoPublish .atLeastOnce) ++ sendOps (demoPublish .atLeastOnce)) := by
  refine ⟨⟨.pubAck ⟨0, .success, .empty⟩, rfl, ?_⟩, ?_, ?_⟩
  · intro cfg ops ha
    exact ((inv cfg ops).ack_no_slot ha (.inl rfl)).1
  · intro cfg ops ha a h
    exact ((inv cfg ops).ack_no_slot ha (.inr h)).2
  · have : events ⟨2, 1, 1000, false⟩ (sendOps (demoPublish .atLeastOnce) ++ sendOps (demoPublish .atLeastOnce)) =
        [_, _, _, _, _, .panicked] := rfl
    rw [this]; simp

example : demo.sendMax ≤ demo.recvMax ∧
    PoliteServer demo (sendOps (demoPublish .exactlyOnce) ++ [.receive (.pubRec ⟨1, .success, .empty⟩)]) := by
  refine ⟨by decide, ?_⟩
  intro a h
  have : a = ⟨1, .success, .empty⟩ := by
    rcases h with h | h <;> simp [sendOps] at h
    exact h
  subst this
  decide

end Mqrstt.Props
