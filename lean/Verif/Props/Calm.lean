import Verif.Proof.Calm
import Verif.Props.Understood
/-!
# What can end `run` (C108)

A user who uses the client legally, a server that follows MQTT: what remains that can end `run`?
-/

namespace Mqrstt.Props
open Mqrstt Mqrstt.Spec _root_.Spec

/-- **C108, tokio (partial).** The user calls the client legally and keeps it; what arrives is in MQTT's wire format, and what is
read is in its place. If `run` ends in a step, the reason is outside: the connection broke, one side said goodbye, the server did
not answer a ping, or there was no connection. It is never a decoding error, an encoding error, an error of the session or a
panic. Missing: histories in which a read was abandoned with bytes in hand, and the packets that the readers refuse (`Readable`). -/
theorem C108_tokio_partial (clientId : Str) (calls : List Setter) (t : Nat) (ops : List TokioOp) (op : TokioOp) (s' : Tokio)
    (obs : List Obs) (e : End) :
    let o := Options.build clientId calls
    (tokio o t ops).step op = some (s', obs) → .ended e ∈ obs → UsedWell o (tokioTrace o t ops) →
    (∀ p, .read p ∈ obs → InPlace o.cleanStart (tokioTrace o t ops) p) → (tokioRx o t ops).taken = 0 →
    (∃ qs sent, ListSays Readable qs sent ∧ (tokioRx o t ops).bytes <+: sent) → Expected e :=
  tokio_calm

/-- **C108, smol (partial).** The same, in a build without overflow checks. -/
theorem C108_smol_partial (clientId : Str) (calls : List Setter) (t : Nat) (ops : List SmolOp) (op : SmolOp) (s' : Smol)
    (obs : List Obs) (e : End) :
    let o := Options.build clientId calls
    (smol false o t ops).step op = some (s', obs) → .ended e ∈ obs → UsedWell o (smolTrace false o t ops) →
    (∀ p, .read p ∈ obs → InPlace o.cleanStart (smolTrace false o t ops) p) →
    (∃ qs sent, ListSays Readable qs sent ∧ (smolRx false o t (ops ++ [op])).bytes <+: sent) → Expected e :=
  smol_calm

/-! ### A message is published and acknowledged, then the server disconnects -/

theorem pubAck_said : Readable (.pubAck ⟨1, .success, .empty⟩) [0x40, 2, 0, 1] :=
  ⟨⟨trivial, 0x40, [2], _, rfl, rfl, oneByte 2 (by decide), [0, 1], [], rfl, ⟨0, 1, rfl, rfl⟩, .inl ⟨rfl, rfl, noProps_empty⟩⟩, id, id⟩

theorem goodbye_said : Readable (.disconnect ⟨.normalDisconnection, .empty⟩) [0xE0, 0] :=
  ⟨⟨trivial, 0xE0, [0], _, rfl, rfl, oneByte 0 (by decide), .inl ⟨rfl, rfl, noProps_empty⟩⟩, id, fun h => (by cases h)⟩

/-- the acknowledgement has arrived -/
def tokioCalm : List TokioOp :=
  tokioUp ++ [.client (.call (demoPublish .atLeastOnce)), .client (.submit 0), .turn .outgoing 0 true (at' 2),
    .arrive [0x40, 2, 0, 1]]

theorem tokioCalm_used (more : List TokioOp) (h : more = [] ∨ more = [.turn .read 0 true (at' 3), .arrive [0xE0, 0]]) :
    UsedWell resumeOptions (tokioTrace resumeOptions 0 (tokioCalm ++ more)) := by
  have e : ∃ c x p q tail, tokioTrace resumeOptions 0 (tokioCalm ++ more) = [.wrote c 1 1, .read (.connAck x),
      .delivered (.connAck x), .connected x 1, .started, .user (.called (demoPublish .atLeastOnce) (some 1) p),
      .user (.submitted p), .wrote p 2 2] ++ tail ∧ (tail = [] ∨ tail = [.read q, .delivered q]) := by
    rcases h with rfl | rfl
    · exact ⟨_, _, _, .pingReq, [], rfl, .inl rfl⟩
    · exact ⟨_, _, _, _, _, rfl, .inr rfl⟩
  obtain ⟨c, x, p, q, tail, e, ht⟩ := e
  refine ⟨fun r id p hm => ?_, fun hm => ?_, by decide⟩
  · rw [e] at hm
    have hm : r = demoPublish .atLeastOnce := by
      rcases ht with rfl | rfl <;> simp at hm <;> exact hm.1
    subst hm
    exact ⟨⟨⟨by unfold NoNull; decide, by decide, by decide⟩, by decide, by decide, rfl, empty_legal _⟩, by intro r P h; cases h⟩
  · unfold ClientsGone at hm
    rw [e] at hm
    rcases ht with rfl | rfl <;> simp at hm

/-- the acknowledgement is in its place, is taken, and `run` goes on; then the server says goodbye and `run` returns -/
example : let ops := tokioCalm ++ [.turn .read 0 true (at' 3), .arrive [0xE0, 0]]
    InPlace resumeOptions.cleanStart (tokioTrace resumeOptions 0 tokioCalm) (.pubAck ⟨1, .success, .empty⟩) ∧
    isRunning (tokioTrace resumeOptions 0 ops) = true ∧ UsedWell resumeOptions (tokioTrace resumeOptions 0 ops) ∧
    (tokioRx resumeOptions 0 ops).taken = 0 ∧
    (∃ qs sent, ListSays Readable qs sent ∧ (tokioRx resumeOptions 0 ops).bytes <+: sent) ∧
    (∃ s', (tokio resumeOptions 0 ops).step (.turn .read 0 true (at' 4)) =
      some (s', [.read (.disconnect ⟨.normalDisconnection, .empty⟩), .delivered (.disconnect ⟨.normalDisconnection, .empty⟩),
        .ended (.status .incomingDisconnect)])) :=
  ⟨⟨_, .head _, rfl, rfl⟩, rfl, tokioCalm_used _ (.inr rfl), rfl,
    ⟨_, _, .cons ⟨connAck_said, id, id⟩ (.cons pubAck_said (.cons goodbye_said .nil)), ⟨[], by decide +kernel⟩⟩, _, rfl⟩

/-- the same story on smol; acknowledgement and DISCONNECT arrive in pieces -/
def smolCalm : List SmolOp :=
  smolUp ++ [.client (.call (demoPublish .atLeastOnce)), .client (.submit 0), .turn .outgoing true (at' 2),
    .turn (.read [0x40]) true (at' 3), .turn (.read [2, 0, 1]) true (at' 4), .turn (.read [0xE0]) true (at' 5)]

theorem smolCalm_used : UsedWell resumeOptions (smolTrace false resumeOptions 0 smolCalm) := by
  have e : ∃ c x p q, smolTrace false resumeOptions 0 smolCalm = [.wrote c 1 1, .read (.connAck x),
      .delivered (.connAck x), .connected x 1, .started, .user (.called (demoPublish .atLeastOnce) (some 1) p),
      .user (.submitted p), .wrote p 2 2, .read q, .delivered q] := ⟨_, _, _, _, rfl⟩
  obtain ⟨c, x, p, q, e⟩ := e
  refine ⟨fun r id p hm => ?_, fun hm => ?_, by decide⟩
  · rw [e] at hm
    have hm : r = demoPublish .atLeastOnce := by simp at hm; exact hm.1
    subst hm
    exact ⟨⟨⟨by unfold NoNull; decide, by decide, by decide⟩, by decide, by decide, rfl, empty_legal _⟩, by intro r P h; cases h⟩
  · unfold ClientsGone at hm
    rw [e] at hm
    simp at hm

example : UsedWell resumeOptions (smolTrace false resumeOptions 0 smolCalm) ∧
    (∃ qs sent, ListSays Readable qs sent ∧
      (smolRx false resumeOptions 0 (smolCalm ++ [.turn (.read [0]) true (at' 6)])).bytes <+: sent) ∧
    (∃ s', (smol false resumeOptions 0 smolCalm).step (.turn (.read [0]) true (at' 6)) =
      some (s', [.read (.disconnect ⟨.normalDisconnection, .empty⟩), .delivered (.disconnect ⟨.normalDisconnection, .empty⟩),
        .ended (.status .incomingDisconnect)])) :=
  ⟨smolCalm_used,
    ⟨_, _, .cons ⟨connAck_said, id, id⟩ (.cons pubAck_said (.cons goodbye_said .nil)), ⟨[], by decide +kernel⟩⟩, _, rfl⟩

/-! ### Ends that are the client's fault -/

/-- half a message has arrived when the client publishes; the rest begins with a zero -/
def tokioBroken : List TokioOp :=
  tokioUp ++ [.arrive [0x30, 5, 0, 1, 97, 0], .client (.call (demoPublish .atLeastOnce)), .client (.submit 0),
    .turn .outgoing 6 true (at' 2), .arrive [0]]

/-- a message of QoS 2 is published -/
def smolAsks : List SmolOp :=
  smolUp ++ [.client (.call (demoPublish .exactlyOnce)), .client (.submit 0), .turn .outgoing true (at' 2)]

theorem used_of {o : Options} {tr : List Obs} {q : QoS} (hmax : o.sendMaximum ≤ o.receiveMaximum)
    (hc : ∀ r id p, .user (.called r id p) ∈ tr → r = demoPublish q) (hg : ¬ ClientsGone tr) : UsedWell o tr := by
  refine ⟨fun r id p hm => ?_, hg, hmax⟩
  rw [hc r id p hm]
  exact ⟨⟨⟨(by unfold NoNull; decide : NoNull ⟨[116], by decide⟩), (by decide : (0x23 : UInt8) ∉ [116]),
    (by decide : (0x2B : UInt8) ∉ [116])⟩, fun h => (by cases h), fun h => (by cases h), rfl, empty_legal _⟩, by intro r P h; cases h⟩

/-- **C108 is false of the code**: with a legal user and a conforming server `run` ends with an error of the client's own making.
(1) tokio: half a message arrives, the client publishes in between, and the other half cannot be decoded. (2) smol: the server
answers a message of QoS 2 with a PUBREC without property length, which cannot be decoded. (3) smol with overflow checks: all but
the last byte of a message arrives, and the client panics. -/
theorem C108_own_fault_violated :
    (∃ s' e, UsedWell resumeOptions (tokioTrace resumeOptions 0 tokioBroken) ∧
      (tokio resumeOptions 0 tokioBroken).step (.turn .read 0 true (at' 3)) = some (s', [.ended (.error (.deserialization e))]) ∧
      (tokioRx resumeOptions 0 tokioBroken).taken = 6 ∧
      ∃ qs sent, ListSays Readable qs sent ∧ (tokioRx resumeOptions 0 tokioBroken).bytes <+: sent) ∧
    (∃ s' e, UsedWell resumeOptions (smolTrace false resumeOptions 0 smolAsks) ∧
      Awaits resumeOptions.cleanStart (smolTrace false resumeOptions 0 smolAsks) (.pubRec ⟨1, .noMatchingSubscribers, .empty⟩) ∧
      (smol false resumeOptions 0 smolAsks).step (.turn (.read [0x50, 3, 0, 1, 0x10]) true (at' 3)) =
        some (s', [.ended (.error (.deserialization e))]) ∧
      ListSays FromServer [.connAck ⟨false, .success, .empty⟩, .pubRec ⟨1, .noMatchingSubscribers, .empty⟩]
        (smolRx false resumeOptions 0 (smolAsks ++ [.turn (.read [0x50, 3, 0, 1, 0x10]) true (at' 3)])).bytes) ∧
    (∃ s', UsedWell resumeOptions (smolTrace true resumeOptions 0 smolUp) ∧
      (smol true resumeOptions 0 smolUp).step (.turn (.read [0x30, 5, 0, 1, 97, 0]) true (at' 2)) = some (s', [.ended .panicked]) ∧
      ∃ qs sent, ListSays Readable qs sent ∧
        (smolRx true resumeOptions 0 (smolUp ++ [.turn (.read [0x30, 5, 0, 1, 97, 0]) true (at' 2)])).bytes <+: sent) := by
  have message := published_said [0] 5 rfl (by decide)
  refine ⟨⟨_, _, ?_, rfl, rfl, _, _, .cons ⟨connAck_said, id, id⟩ (.cons ⟨message, id, id⟩ .nil), ⟨[], by decide +kernel⟩⟩,
    ⟨_, _, ?_, ⟨_, .head _, rfl, rfl⟩, rfl, .cons connAck_said (.cons shortRec_said .nil)⟩,
    ⟨_, ?_, rfl, _, _, .cons ⟨connAck_said, id, id⟩ (.cons ⟨message, id, id⟩ .nil), ⟨[0], by decide +kernel⟩⟩⟩
  · have e : ∃ c x p, tokioTrace resumeOptions 0 tokioBroken = [.wrote c 1 1, .read (.connAck x), .delivered (.connAck x),
        .connected x 1, .started, .user (.called (demoPublish .atLeastOnce) (some 1) p), .user (.submitted p), .wrote p 2 2] :=
      ⟨_, _, _, rfl⟩
    obtain ⟨c, x, p, e⟩ := e
    refine used_of (q := .atLeastOnce) (by decide) (fun r id p hm => ?_) (fun hm => ?_)
    · rw [e] at hm; simp at hm; exact hm.1
    · unfold ClientsGone at hm; rw [e] at hm; simp at hm
  · have e : ∃ c x p, smolTrace false resumeOptions 0 smolAsks = [.wrote c 1 1, .read (.connAck x), .delivered (.connAck x),
        .connected x 1, .started, .user (.called (demoPublish .exactlyOnce) (some 1) p), .user (.submitted p), .wrote p 2 2] :=
      ⟨_, _, _, rfl⟩
    obtain ⟨c, x, p, e⟩ := e
    refine used_of (q := .exactlyOnce) (by decide) (fun r id p hm => ?_) (fun hm => ?_)
    · rw [e] at hm; simp at hm; exact hm.1
    · unfold ClientsGone at hm; rw [e] at hm; simp at hm
  · have e : ∃ c x, smolTrace true resumeOptions 0 smolUp = [.wrote c 1 1, .read (.connAck x), .delivered (.connAck x),
        .connected x 1, .started] := ⟨_, _, rfl⟩
    obtain ⟨c, x, e⟩ := e
    refine used_of (q := .exactlyOnce) (by decide) (fun r id p hm => ?_) (fun hm => ?_)
    · rw [e] at hm; simp at hm
    · unfold ClientsGone at hm; rw [e] at hm; simp at hm

end Mqrstt.Props
