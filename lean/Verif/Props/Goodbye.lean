import Verif.Proof.Goodbye
import Verif.Props.Progress
/-! # Saying goodbye (C93, C94) -/

namespace Mqrstt.Props
open Mqrstt Mqrstt.Spec _root_.Spec

theorem all_fine {tr : List Obs} (h : ∀ x ∈ tr, fails x = false) : tr.all (fun x => !fails x) = true := by
  rw [List.all_eq_true]
  intro x hx
  simp [h x hx]

/-- **C93.** When `run` returns because the user asked to disconnect, the last packet written is the DISCONNECT of a
call, and every publish, subscribe and unsubscribe accepted before that call has been written, once and in the order of
acceptance, and none accepted after it; provided no run failed before. -/
theorem C93_flushed (tr pre post : List Obs) (h : IsTrace tr) (e : tr = pre ++ .ended (.status .outgoingDisconnect) :: post)
    (hfine : ∀ x ∈ pre, fails x = false) :
    ∃ d before after, submittedIn pre = before ++ .disconnect d :: after ∧ freshIn pre = before.filter isFresh ∧
      ∃ a b, [.wrote (.disconnect d) a b] <:+ pre := by
  obtain ⟨fl, o, t, v, h⟩ := h.vrun
  obtain ⟨v1, v2, tr1, o1, o2, tr2, h1, h2, -, rfl, -⟩ := h.split e
  obtain ⟨d, a, b, rest, ho, hq, ha⟩ := h2.leaving (by simp)
  have ho1 : o1 = [.wrote (.disconnect d) a b] := by
    match o1, ho with
    | [], ho => simp at ho
    | [x], ho => simp at ho; rw [ho.1]
    | x :: y :: z, ho => simp at ho
  subst ho1
  obtain ⟨ta, re, e1, e2, e3⟩ := h1.flushed.flushed (all_fine fun x hx => hfine x (List.mem_append_left _ hx))
  refine ⟨d, ta, rest, ?_, ?_, a, b, List.suffix_append _ _⟩
  · rw [submittedIn_append, e1, e3 ha, hq]; simp [submittedIn]
  · rw [freshIn_append, e2]; simp [freshIn, writtenIn, isFresh]

/-- **C93.** What is accepted after the disconnect call is not lost: without failures, the packets written, over all
connections, are exactly the first ones accepted. -/
theorem C93_kept (tr : List Obs) (h : IsTrace tr) (hfine : ∀ x ∈ tr, fails x = false) :
    freshIn tr <+: (submittedIn tr).filter isFresh := by
  obtain ⟨fl, o, t, v, h⟩ := h.vrun
  obtain ⟨ta, re, e1, e2, -⟩ := h.flushed.flushed (all_fine hfine)
  rw [e1, e2, List.filter_append]
  exact List.prefix_append _ _

/-- **C94**, the part that holds: a run ends with the user's DISCONNECT at most once for each disconnect call. So if each
disconnect call made so far has ended a run, the next run that ends in this way has been ended by a disconnect call made
since. Missing: that a disconnect call made while there is no connection does not end the next one. -/
theorem C94_own_connection_partial (tr pre mid post : List Obs) (h : IsTrace tr)
    (e : tr = pre ++ mid ++ .ended (.status .outgoingDisconnect) :: post) :
    leftIn (pre ++ mid) + 1 ≤ leaveCalls (pre ++ mid) ∧
    (leftIn pre = leaveCalls pre → leftIn mid + 1 ≤ leaveCalls mid) := by
  have key : leftIn (pre ++ mid) + 1 ≤ leaveCalls (pre ++ mid) := by
    obtain ⟨fl, o, t, v, h⟩ := h.vrun
    obtain ⟨v1, v2, tr1, o1, o2, tr2, h1, h2, -, e', -⟩ := h.split e
    obtain ⟨d, a, b, rest, ho, hq, ha⟩ := h2.leaving (by simp)
    have ho1 : o1 = [.wrote (.disconnect d) a b] := by
      match o1, ho with
      | [], ho => simp at ho
      | [x], ho => simp at ho; rw [ho.1]
      | x :: y :: z, ho => simp at ho
    subst ho1
    obtain ⟨ta, re, e1, e2, e3⟩ := h1.flushed.left
    have hs : submittedIn (pre ++ mid) = ta ++ .disconnect d :: rest := by
      rw [e', submittedIn_append, e1, e3 ha, hq]; simp [submittedIn]
    have hl : leftIn (pre ++ mid) = leftIn tr1 := by rw [e', leftIn_append]; rfl
    rw [hl, leaveCalls, hs, List.filter_append, List.length_append]
    simp only [List.filter_cons, Packet.isDisconnect, if_true, List.length_cons]
    omega
  refine ⟨key, fun hp => ?_⟩
  rw [leftIn_append] at key
  simp only [leaveCalls, submittedIn_append, List.filter_append, List.length_append] at key hp ⊢
  omega

/-- a disconnect call -/
def goodbye : Request := .disconnect .normalDisconnection .empty

/-- one message is sent, then a disconnect call, then another message is accepted; the first run writes the first message and
the DISCONNECT; the second message is written on the second connection -/
def tokioGoodbye : List TokioOp :=
  tokioUp ++ [.client (.call (netPublish [1])), .client (.submit 0), .client (.call goodbye), .client (.submit 0),
    .client (.call (netPublish [2])), .client (.submit 0), .turn .outgoing 0 true (at' 2), .turn .outgoing 0 true (at' 3),
    .connect ⟨true, plainConnAck, false, fun _ => true, true, at' 4⟩, .start, .turn .outgoing 0 true (at' 5)]

example : let tr := tokioTrace fewIds 0 tokioGoodbye
    (∀ x ∈ tr, fails x = false) ∧ submittedIn tr = [netPublished [1], .disconnect ⟨.normalDisconnection, .empty⟩, netPublished [2]] ∧
    freshIn tr = [netPublished [1], netPublished [2]] ∧ leftIn tr = 1 ∧ leaveCalls tr = 1 := by
  refine ⟨?_, rfl, rfl, rfl, rfl⟩
  intro x hx
  have : (tokioTrace fewIds 0 tokioGoodbye).all (fun x => !fails x) = true := rfl
  simpa using List.all_eq_true.1 this x hx

def smolGoodbye : List SmolOp :=
  smolUp ++ [.client (.call (netPublish [1])), .client (.submit 0), .client (.call goodbye), .client (.submit 0),
    .client (.call (netPublish [2])), .client (.submit 0), .turn .outgoing true (at' 2), .turn .outgoing true (at' 3),
    .connect ⟨true, [plainConnAck], true, at' 4⟩, .start, .turn .outgoing true (at' 5)]

example : let tr := smolTrace true fewIds 0 smolGoodbye
    (tr.all (fun x => !fails x) = true) ∧
    submittedIn tr = [netPublished [1], .disconnect ⟨.normalDisconnection, .empty⟩, netPublished [2]] ∧
    freshIn tr = [netPublished [1], netPublished [2]] ∧ leftIn tr = 1 ∧ leaveCalls tr = 1 := ⟨rfl, rfl, rfl, rfl, rfl⟩

/-- **C94 is violated.** The server ends the connection; then the user calls disconnect, which is accepted although there is
no connection; the user connects again. The DISCONNECT is written first thing on the new connection and ends it: no
disconnect call was made since that connection was established. -/
theorem C94_own_connection_violated :
    (∃ ops pre mid post, tokioTrace fewIds 0 ops = pre ++ mid ++ .ended (.status .outgoingDisconnect) :: post ∧
      (∃ c t, [.connected c t] <:+ pre) ∧ leaveCalls mid = 0 ∧ leaveCalls pre = 1) ∧
    (∃ ops pre mid post, smolTrace true fewIds 0 ops = pre ++ mid ++ .ended (.status .outgoingDisconnect) :: post ∧
      (∃ c t, [.connected c t] <:+ pre) ∧ leaveCalls mid = 0 ∧ leaveCalls pre = 1) := by
  let bye : Packet := .disconnect ⟨.normalDisconnection, .empty⟩
  let c : ConnAck := ⟨false, .success, .empty⟩
  let pre : List Obs := [.wrote fewIds.connectPacket 1 1, .read (.connAck c), .delivered (.connAck c), .connected c 1, .started,
    .read bye, .delivered bye, .ended (.status .incomingDisconnect), .user (.called goodbye none bye), .user (.submitted bye),
    .wrote fewIds.connectPacket 3 3, .read (.connAck c), .delivered (.connAck c)]
  refine ⟨⟨tokioUp ++ [.arrive [0xE0, 0x00], .turn .read 0 true (at' 2), .client (.call goodbye), .client (.submit 0),
      .connect ⟨true, plainConnAck, false, fun _ => true, true, at' 3⟩, .start, .turn .outgoing 0 true (at' 4)],
      pre ++ [.connected c 3], [.started, .wrote bye 4 4], [], rfl, ⟨c, 3, List.suffix_append _ _⟩, rfl, rfl⟩,
    ⟨smolUp ++ [.turn (.read [0xE0, 0x00]) true (at' 2), .client (.call goodbye), .client (.submit 0),
      .connect ⟨true, [plainConnAck], true, at' 3⟩, .start, .turn .outgoing true (at' 4)],
      pre ++ [.connected c 3], [.started, .wrote bye 4 4], [], rfl, ⟨c, 3, List.suffix_append _ _⟩, rfl, rfl⟩⟩

end Mqrstt.Props
