import Verif.Proof.Inbound
import Verif.Props.EndToEnd
/-!
# C75, C76: messages from the server arrive, from one end to the other

Client, network and server together: the histories of the client are those of the model, the server sends messages of QoS 1
and 2 as MQTT v5 demands (`Duplex.Story`). Connections may be lost at any moment, with everything under way on them.
-/

namespace Mqrstt.Props
open Mqrstt Mqrstt.Spec _root_.Spec

theorem inbound {tr : List Obs} (h : IsTrace tr) {keeps : Bool} {d : Duplex} (hd : Duplex.Story keeps tr d) :
    Inb.Inv (rcv tr) d ∧ handledIn tr = (gotIn tr).filter fun p => p.qos ≠ .exactlyOnce || !p.dup := by
  obtain ⟨fl, o, t, v, hv⟩ := h.vrun
  have hb := hv.inboxed
  have hi := Inb.Inv.story hd hb.keeps
  have he : (rcv tr).expected = handledIn tr := by
    have := hb.expected
    simpa [rcv, Rcv.start] using this
  exact ⟨hi, by rw [← he, gotIn_eq]; exact hi.expected⟩

/-- **C75, at least once.** Whatever happens to the connections: every QoS 1 message that the server was told is done has been
given to the handler, as often as the server was told; the handler sees nothing that the server has not sent; and it sees
every QoS 1 message that `run` reads. -/
theorem C75_at_least_once (tr : List Obs) (h : IsTrace tr) (keeps : Bool) (d : Duplex) (hd : Duplex.Story keeps tr d) :
    (∃ copies, ((ofQos .atLeastOnce (handledIn tr)).map World.message).Perm (ofQos .atLeastOnce d.done ++ copies)) ∧
    (∀ p ∈ handledIn tr, World.message p ∈ d.begun) ∧
    ofQos .atLeastOnce (handledIn tr) = ofQos .atLeastOnce (gotIn tr) := by
  obtain ⟨hi, he⟩ := inbound h hd
  have h3 : ofQos .atLeastOnce (handledIn tr) = ofQos .atLeastOnce (gotIn tr) := by
    rw [he]
    unfold ofQos
    rw [List.filter_filter]
    apply List.filter_congr
    intro p _
    cases hq : p.qos <;> simp
  refine ⟨?_, ?_, h3⟩
  · rw [h3]
    apply part_of_times
    intro m
    obtain ⟨R, -, hb⟩ := hi.state
    have := hb m
    rw [Inb.times_one, Inb.times_map_one, gotIn_eq]
    split <;> omega
  · intro p hp
    rw [he, gotIn_eq] at hp
    exact hi.gotBegun p (List.mem_filter.mp hp).1

/-- **C76, at most once.** Whatever happens to the connections, the handler sees each QoS 2 message that the server has begun to
send at most once, and nothing else. It sees exactly the messages read in `run` that are not marked as copies. -/
theorem C76_at_most_once (tr : List Obs) (h : IsTrace tr) (keeps : Bool) (d : Duplex) (hd : Duplex.Story keeps tr d) :
    (∃ rest, (ofQos .exactlyOnce d.begun).Perm (ofQos .exactlyOnce (handledIn tr) ++ rest)) ∧
    ofQos .exactlyOnce (handledIn tr) = (ofQos .exactlyOnce (gotIn tr)).filter (!·.dup) := by
  obtain ⟨hi, he⟩ := inbound h hd
  have h3 : ofQos .exactlyOnce (handledIn tr) = ofQos .exactlyOnce ((gotIn tr).filter (!·.dup)) := by
    rw [he]
    unfold ofQos
    rw [List.filter_filter, List.filter_filter]
    apply List.filter_congr
    intro p _
    cases hq : p.qos <;> simp
  have h4 : ofQos .exactlyOnce ((gotIn tr).filter (!·.dup)) = (ofQos .exactlyOnce (gotIn tr)).filter (!·.dup) := by
    unfold ofQos
    rw [List.filter_filter, List.filter_filter]
    apply List.filter_congr
    intro p _
    rw [Bool.and_comm]
  refine ⟨?_, h3.trans h4⟩
  rw [h3]
  apply part_of_times
  intro m
  have := hi.firsts m
  rw [Inb.times_one, Inb.times_one, gotIn_eq]
  split <;> omega

/-- **C76, not lost**, the part that holds: a QoS 2 message that the server was told is done has been given to the handler, or
`run` has read a copy of it that was marked as a copy. Missing: the marked copies, see below. -/
theorem C76_not_lost_partial (tr : List Obs) (h : IsTrace tr) (keeps : Bool) (d : Duplex) (hd : Duplex.Story keeps tr d) :
    ∃ rest, ((ofQos .exactlyOnce (handledIn tr) ++ (ofQos .exactlyOnce (gotIn tr)).filter (·.dup)).map World.message).Perm
      (ofQos .exactlyOnce d.done ++ rest) := by
  obtain ⟨hi, -⟩ := inbound h hd
  obtain ⟨-, h2⟩ := C76_at_most_once tr h keeps d hd
  apply part_of_times
  intro m
  obtain ⟨R, -, hb⟩ := hi.state
  have hb := hb m
  have hp : ((ofQos .exactlyOnce (gotIn tr)).filter (!·.dup) ++ (ofQos .exactlyOnce (gotIn tr)).filter (·.dup)).Perm (ofQos .exactlyOnce (gotIn tr)) :=
    (List.perm_append_comm).trans (List.filter_append_perm _ _)
  rw [h2, times_perm (hp.map World.message), Inb.times_one, Inb.times_map_one, gotIn_eq]
  split <;> omega

/-- **C76, exactly once**, the part that holds: if every connection brings first copies only, each finished message has been
given to the handler. -/
theorem C76_exactly_once_partial (tr : List Obs) (h : IsTrace tr) (keeps : Bool) (d : Duplex) (hd : Duplex.Story keeps tr d)
    (hf : ∀ p ∈ gotIn tr, p.qos = .exactlyOnce → p.dup = false) :
    ∃ rest, (ofQos .exactlyOnce (handledIn tr)).Perm (ofQos .exactlyOnce d.done ++ rest) := by
  obtain ⟨rest, hr⟩ := C76_not_lost_partial tr h keeps d hd
  obtain ⟨-, h2⟩ := C76_at_most_once tr h keeps d hd
  refine ⟨rest, ?_⟩
  have h3 : (ofQos .exactlyOnce (gotIn tr)).filter (·.dup) = [] := by
    rw [List.filter_eq_nil_iff]
    intro p hp
    obtain ⟨h4, h5⟩ := List.mem_filter.mp hp
    simp [hf p h4 (by simpa using h5)]
  have h4 : (ofQos .exactlyOnce (handledIn tr)).map World.message = ofQos .exactlyOnce (handledIn tr) := by
    rw [h2]
    conv => rhs; rw [← List.map_id ((ofQos .exactlyOnce (gotIn tr)).filter (!·.dup))]
    apply List.map_congr_left
    intro p hp
    exact message_self (by simpa using (List.mem_filter.mp hp).2)
  rw [h3, List.append_nil, h4] at hr
  exact hr

/-! ## stories -/

def inMessage (q : QoS) : Publish := ⟨false, q, false, ⟨[116], by decide⟩, some 7, .empty, [9]⟩

/-- a message of QoS 1 is read and acknowledged, the connection is lost before the server has the PUBACK, the session is
resumed and the message comes again -/
def inOnceOps : List TokioOp :=
  tokioUp ++ [.arrive [0x32, 7, 0, 1, 116, 0, 7, 0, 9], .turn .read 0 true (at' 2), .turn .readError 0 true (at' 3),
    .connect ⟨true, resumedConnAck, false, fun _ => true, true, at' 4⟩, .start,
    .arrive [0x3A, 7, 0, 1, 116, 0, 7, 0, 9], .turn .read 0 true (at' 5)]

def inOnceTrace : List Obs := tokioTrace resumeOptions 0 inOnceOps

theorem inOnceTrace_eq : ∃ r, inOnceTrace =
    [.wrote resumeOptions.connectPacket 1 1, .read (.connAck ⟨false, .success, .empty⟩), .delivered (.connAck ⟨false, .success, .empty⟩),
      .connected ⟨false, .success, .empty⟩ 1, .started, .read (.publish (inMessage .atLeastOnce)), .delivered (.publish (inMessage .atLeastOnce)),
      .wrote (.pubAck ⟨7, .success, .empty⟩) 2 2, .ended r,
      .wrote resumeOptions.connectPacket 4 4, .read (.connAck ⟨true, .success, .empty⟩), .delivered (.connAck ⟨true, .success, .empty⟩),
      .connected ⟨true, .success, .empty⟩ 4, .started, .read (.publish { inMessage .atLeastOnce with dup := true }),
      .delivered (.publish { inMessage .atLeastOnce with dup := true }), .wrote (.pubAck ⟨7, .success, .empty⟩) 5 5] := ⟨_, rfl⟩

/-- the first connection of these stories: the server accepts it and begins to send a message -/
theorem inBegin (q : QoS) (hq : q ≠ .atMostOnce) (c : Connect) :
    Duplex.Story true [.wrote (.connect c) 1 1, .read (.connAck ⟨false, .success, .empty⟩), .delivered (.connAck ⟨false, .success, .empty⟩),
      .connected ⟨false, .success, .empty⟩ 1, .started]
      ⟨⟨[], [.publish (inMessage q)], [], true, [], true⟩, [⟨inMessage q, false, true⟩], [inMessage q], []⟩ := by
  have h0 : Duplex.Story true [] ⟨⟨[], [], [], false, [], false⟩, [], [], []⟩ := .start
  have h1 : Duplex.Story true _ ⟨⟨[.connect c], [], [], false, [], false⟩, [], [], []⟩ := h0.client (.connect (c := c) (a := 1) (b := 1) 0)
  have h2 : Duplex.Story true _ ⟨⟨[], [.connAck ⟨false, .success, .empty⟩], [], true, [], false⟩, [], [], []⟩ :=
    h1.server (.accept rfl rfl rfl)
  have h3 : Duplex.Story true _ ⟨⟨[], [], [], true, [], true⟩, [], [], []⟩ := h2.client (.accepted (missed := []) rfl rfl)
  have h4 : Duplex.Story true _ ⟨⟨[], [], [], true, [], true⟩, [], [], []⟩ :=
    ((h3.client (.delivered (p := .connAck ⟨false, .success, .empty⟩))).client (.connected (c := ⟨false, .success, .empty⟩) (t := 1))).client
      (.started rfl)
  exact h4.server (.begins (m := inMessage q) (id := 7) hq rfl rfl (by simp))

/-- the connection is lost and the session resumed: the server sends an unfinished message again -/
theorem inAgain {tr : List Obs} {q : QoS} {ts tc : List Packet} {c : Connect} {r : End} (hc : c.cleanStart = false)
    (h : Duplex.Story true tr ⟨⟨ts, tc, [], true, [], true⟩, [⟨inMessage q, false, true⟩], [inMessage q], []⟩) :
    Duplex.Story true (tr ++ [.ended r, .wrote (.connect c) 4 4, .read (.connAck ⟨true, .success, .empty⟩),
      .delivered (.connAck ⟨true, .success, .empty⟩), .connected ⟨true, .success, .empty⟩ 4, .started])
      ⟨⟨[], [.publish { inMessage q with dup := true }], [], true, [], true⟩, [⟨inMessage q, false, true⟩], [inMessage q], []⟩ := by
  have h1 : Duplex.Story true _ ⟨⟨[.connect c], [], [], true, [], false⟩, [⟨inMessage q, false, true⟩], [inMessage q], []⟩ :=
    (h.client (.ended (r := r))).client (.connect (c := c) (a := 4) (b := 4) 0)
  have h2 : Duplex.Story true _ ⟨⟨[], [.connAck ⟨true, .success, .empty⟩], [], true, [], false⟩, [⟨inMessage q, false, false⟩], [inMessage q], []⟩ :=
    h1.server (.accept rfl rfl (by simp [hc]))
  have h3 : Duplex.Story true _ ⟨⟨[], [], [], true, [], true⟩, [⟨inMessage q, false, false⟩], [inMessage q], []⟩ :=
    h2.client (.accepted (missed := []) rfl rfl)
  have h4 : Duplex.Story true _ ⟨⟨[], [], [], true, [], true⟩, [⟨inMessage q, false, false⟩], [inMessage q], []⟩ :=
    ((h3.client (.delivered (p := .connAck ⟨true, .success, .empty⟩))).client (.connected (c := ⟨true, .success, .empty⟩) (t := 4))).client
      (.started rfl)
  have h5 := h4.server (.again (pre := []) (post := []) rfl rfl rfl)
  simp only [List.append_assoc, List.cons_append, List.nil_append] at h5
  exact h5

theorem inOnceStory : Duplex.Story true inOnceTrace
    ⟨⟨[], [], [], true, [], true⟩, [], [inMessage .atLeastOnce], [inMessage .atLeastOnce]⟩ := by
  obtain ⟨r, e⟩ := inOnceTrace_eq
  rw [e]
  obtain ⟨c, hc, hcl⟩ : ∃ c, resumeOptions.connectPacket = .connect c ∧ c.cleanStart = false := ⟨_, rfl, rfl⟩
  rw [hc]
  have h0 := inBegin .atLeastOnce (by simp) c
  have h1 : Duplex.Story true _ ⟨⟨[.pubAck ⟨7, .success, .empty⟩], [], [], true, [], true⟩, [⟨inMessage .atLeastOnce, false, true⟩],
      [inMessage .atLeastOnce], []⟩ :=
    ((h0.client (.read (missed := []) rfl (by simp))).client (.delivered (p := .publish (inMessage .atLeastOnce)))).client
      (.wrote (p := .pubAck ⟨7, .success, .empty⟩) (a := 2) (b := 2) rfl)
  have h2 := inAgain (r := r) hcl h1
  have h3 : Duplex.Story true _ ⟨⟨[.pubAck ⟨7, .success, .empty⟩], [], [], true, [], true⟩, [⟨inMessage .atLeastOnce, false, true⟩],
      [inMessage .atLeastOnce], []⟩ :=
    ((h2.client (.read (missed := []) rfl (by simp))).client (.delivered (p := .publish { inMessage .atLeastOnce with dup := true }))).client
      (.wrote (p := .pubAck ⟨7, .success, .empty⟩) (a := 5) (b := 5) rfl)
  have h4 := h3.server (.pubAck (pre := []) (post := []) (a := ⟨7, .success, .empty⟩) rfl rfl rfl rfl)
  simp only [List.append_assoc, List.cons_append, List.nil_append] at h4
  exact h4

/-- finished once, given to the handler twice -/
example : IsTrace inOnceTrace ∧
    (∃ d, Duplex.Story true inOnceTrace d ∧ ofQos .atLeastOnce d.done = [inMessage .atLeastOnce]) ∧
    ofQos .atLeastOnce (handledIn inOnceTrace) = [inMessage .atLeastOnce, { inMessage .atLeastOnce with dup := true }] :=
  ⟨.tokio resumeOptions 0 inOnceOps rfl, ⟨_, inOnceStory, rfl⟩, rfl⟩

/-- the same with QoS 2 -/
def inTwiceOps : List TokioOp :=
  tokioUp ++ [.arrive [0x34, 7, 0, 1, 116, 0, 7, 0, 9], .turn .read 0 true (at' 2), .turn .readError 0 true (at' 3),
    .connect ⟨true, resumedConnAck, false, fun _ => true, true, at' 4⟩, .start,
    .arrive [0x3C, 7, 0, 1, 116, 0, 7, 0, 9], .turn .read 0 true (at' 5), .arrive [0x62, 2, 0, 7], .turn .read 0 true (at' 6)]

def inTwiceTrace : List Obs := tokioTrace resumeOptions 0 inTwiceOps

theorem inTwiceTrace_eq : ∃ r, inTwiceTrace =
    [.wrote resumeOptions.connectPacket 1 1, .read (.connAck ⟨false, .success, .empty⟩), .delivered (.connAck ⟨false, .success, .empty⟩),
      .connected ⟨false, .success, .empty⟩ 1, .started, .read (.publish (inMessage .exactlyOnce)), .delivered (.publish (inMessage .exactlyOnce)),
      .wrote (.pubRec ⟨7, .success, .empty⟩) 2 2, .ended r,
      .wrote resumeOptions.connectPacket 4 4, .read (.connAck ⟨true, .success, .empty⟩), .delivered (.connAck ⟨true, .success, .empty⟩),
      .connected ⟨true, .success, .empty⟩ 4, .started, .read (.publish { inMessage .exactlyOnce with dup := true }),
      .wrote (.pubRec ⟨7, .success, .empty⟩) 5 5, .read (.pubRel ⟨7, .success, .empty⟩), .delivered (.pubRel ⟨7, .success, .empty⟩),
      .wrote (.pubComp ⟨7, .success, .empty⟩) 6 6] := ⟨_, rfl⟩

/-- the first copy is lost with the first connection -/
def inLostOps : List TokioOp :=
  tokioUp ++ [.turn .readError 0 true (at' 3),
    .connect ⟨true, resumedConnAck, false, fun _ => true, true, at' 4⟩, .start,
    .arrive [0x3C, 7, 0, 1, 116, 0, 7, 0, 9], .turn .read 0 true (at' 5), .arrive [0x62, 2, 0, 7], .turn .read 0 true (at' 6)]

def inLostTrace : List Obs := tokioTrace resumeOptions 0 inLostOps

theorem inLostTrace_eq : ∃ r, inLostTrace =
    [.wrote resumeOptions.connectPacket 1 1, .read (.connAck ⟨false, .success, .empty⟩), .delivered (.connAck ⟨false, .success, .empty⟩),
      .connected ⟨false, .success, .empty⟩ 1, .started, .ended r,
      .wrote resumeOptions.connectPacket 4 4, .read (.connAck ⟨true, .success, .empty⟩), .delivered (.connAck ⟨true, .success, .empty⟩),
      .connected ⟨true, .success, .empty⟩ 4, .started, .read (.publish { inMessage .exactlyOnce with dup := true }),
      .wrote (.pubRec ⟨7, .success, .empty⟩) 5 5, .read (.pubRel ⟨7, .success, .empty⟩), .delivered (.pubRel ⟨7, .success, .empty⟩),
      .wrote (.pubComp ⟨7, .success, .empty⟩) 6 6] := ⟨_, rfl⟩

/-- the handshake of a marked copy -/
theorem inFinish {tr : List Obs} (h : Duplex.Story true tr ⟨⟨[], [.publish { inMessage .exactlyOnce with dup := true }], [], true, [], true⟩,
      [⟨inMessage .exactlyOnce, false, true⟩], [inMessage .exactlyOnce], []⟩) :
    Duplex.Story true (tr ++ [.read (.publish { inMessage .exactlyOnce with dup := true }),
      .wrote (.pubRec ⟨7, .success, .empty⟩) 5 5, .read (.pubRel ⟨7, .success, .empty⟩), .delivered (.pubRel ⟨7, .success, .empty⟩),
      .wrote (.pubComp ⟨7, .success, .empty⟩) 6 6])
      ⟨⟨[], [], [], true, [], true⟩, [], [inMessage .exactlyOnce], [inMessage .exactlyOnce]⟩ := by
  have h1 : Duplex.Story true _ ⟨⟨[.pubRec ⟨7, .success, .empty⟩], [], [], true, [], true⟩, [⟨inMessage .exactlyOnce, false, true⟩],
      [inMessage .exactlyOnce], []⟩ :=
    (h.client (.read (missed := []) rfl (by simp))).client (.wrote (p := .pubRec ⟨7, .success, .empty⟩) (a := 5) (b := 5) rfl)
  have h2 : Duplex.Story true _ ⟨⟨[], [.pubRel ⟨7, .success, .empty⟩], [], true, [], true⟩, [⟨inMessage .exactlyOnce, true, true⟩],
      [inMessage .exactlyOnce], []⟩ :=
    h1.server (.pubRec (o := ⟨inMessage .exactlyOnce, false, true⟩) (rest := []) (pre := []) (post := []) (a := ⟨7, .success, .empty⟩) (r := ⟨7, .success, .empty⟩) rfl rfl rfl rfl rfl rfl)
  have h3 : Duplex.Story true _ ⟨⟨[.pubComp ⟨7, .success, .empty⟩], [], [], true, [], true⟩, [⟨inMessage .exactlyOnce, true, true⟩],
      [inMessage .exactlyOnce], []⟩ :=
    ((h2.client (.read (missed := []) rfl (by simp))).client (.delivered (p := .pubRel ⟨7, .success, .empty⟩))).client
      (.wrote (p := .pubComp ⟨7, .success, .empty⟩) (a := 6) (b := 6) rfl)
  have h4 := h3.server (.pubComp (pre := []) (post := []) (a := ⟨7, .success, .empty⟩) rfl rfl rfl rfl)
  simp only [List.append_assoc, List.cons_append, List.nil_append] at h4
  exact h4

theorem inTwiceStory : Duplex.Story true inTwiceTrace
    ⟨⟨[], [], [], true, [], true⟩, [], [inMessage .exactlyOnce], [inMessage .exactlyOnce]⟩ := by
  obtain ⟨r, e⟩ := inTwiceTrace_eq
  rw [e]
  obtain ⟨c, hc, hcl⟩ : ∃ c, resumeOptions.connectPacket = .connect c ∧ c.cleanStart = false := ⟨_, rfl, rfl⟩
  rw [hc]
  have h0 := inBegin .exactlyOnce (by simp) c
  have h1 : Duplex.Story true _ ⟨⟨[.pubRec ⟨7, .success, .empty⟩], [], [], true, [], true⟩, [⟨inMessage .exactlyOnce, false, true⟩],
      [inMessage .exactlyOnce], []⟩ :=
    ((h0.client (.read (missed := []) rfl (by simp))).client (.delivered (p := .publish (inMessage .exactlyOnce)))).client
      (.wrote (p := .pubRec ⟨7, .success, .empty⟩) (a := 2) (b := 2) rfl)
  have h2 := inFinish (inAgain (r := r) hcl h1)
  simp only [List.append_assoc, List.cons_append, List.nil_append] at h2
  exact h2

theorem inLostStory : Duplex.Story true inLostTrace
    ⟨⟨[], [], [], true, [], true⟩, [], [inMessage .exactlyOnce], [inMessage .exactlyOnce]⟩ := by
  obtain ⟨r, e⟩ := inLostTrace_eq
  rw [e]
  obtain ⟨c, hc, hcl⟩ : ∃ c, resumeOptions.connectPacket = .connect c ∧ c.cleanStart = false := ⟨_, rfl, rfl⟩
  rw [hc]
  have h2 := inFinish (inAgain (r := r) hcl (inBegin .exactlyOnce (by simp) c))
  simp only [List.append_assoc, List.cons_append, List.nil_append] at h2
  exact h2

/-- sent twice, finished once, given to the handler once -/
example : IsTrace inTwiceTrace ∧
    (∃ d, Duplex.Story true inTwiceTrace d ∧ ofQos .exactlyOnce d.done = [inMessage .exactlyOnce]) ∧
    ofQos .exactlyOnce (handledIn inTwiceTrace) = [inMessage .exactlyOnce] ∧ (gotIn inTwiceTrace).length = 2 :=
  ⟨.tokio resumeOptions 0 inTwiceOps rfl, ⟨_, inTwiceStory, rfl⟩, rfl, rfl⟩

/-- without a lost connection -/
def inPlainOps : List TokioOp :=
  tokioUp ++ [.arrive [0x34, 7, 0, 1, 116, 0, 7, 0, 9], .turn .read 0 true (at' 2), .arrive [0x62, 2, 0, 7], .turn .read 0 true (at' 3)]

def inPlainTrace : List Obs := tokioTrace resumeOptions 0 inPlainOps

theorem inPlainStory : Duplex.Story true inPlainTrace
    ⟨⟨[], [], [], true, [], true⟩, [], [inMessage .exactlyOnce], [inMessage .exactlyOnce]⟩ := by
  obtain ⟨c, hc⟩ : ∃ c, resumeOptions.connectPacket = .connect c := ⟨_, rfl⟩
  have e : inPlainTrace =
    [.wrote resumeOptions.connectPacket 1 1, .read (.connAck ⟨false, .success, .empty⟩), .delivered (.connAck ⟨false, .success, .empty⟩),
      .connected ⟨false, .success, .empty⟩ 1, .started, .read (.publish (inMessage .exactlyOnce)), .delivered (.publish (inMessage .exactlyOnce)),
      .wrote (.pubRec ⟨7, .success, .empty⟩) 2 2, .read (.pubRel ⟨7, .success, .empty⟩), .delivered (.pubRel ⟨7, .success, .empty⟩),
      .wrote (.pubComp ⟨7, .success, .empty⟩) 3 3] := rfl
  rw [e, hc]
  have h1 : Duplex.Story true _ ⟨⟨[.pubRec ⟨7, .success, .empty⟩], [], [], true, [], true⟩, [⟨inMessage .exactlyOnce, false, true⟩],
      [inMessage .exactlyOnce], []⟩ :=
    (((inBegin .exactlyOnce (by simp) c).client (.read (missed := []) rfl (by simp))).client
      (.delivered (p := .publish (inMessage .exactlyOnce)))).client (.wrote (p := .pubRec ⟨7, .success, .empty⟩) (a := 2) (b := 2) rfl)
  have h2 : Duplex.Story true _ ⟨⟨[], [.pubRel ⟨7, .success, .empty⟩], [], true, [], true⟩, [⟨inMessage .exactlyOnce, true, true⟩],
      [inMessage .exactlyOnce], []⟩ :=
    h1.server (.pubRec (o := ⟨inMessage .exactlyOnce, false, true⟩) (rest := []) (pre := []) (post := []) (a := ⟨7, .success, .empty⟩)
      (r := ⟨7, .success, .empty⟩) rfl rfl rfl rfl rfl rfl)
  have h3 : Duplex.Story true _ ⟨⟨[.pubComp ⟨7, .success, .empty⟩], [], [], true, [], true⟩, [⟨inMessage .exactlyOnce, true, true⟩],
      [inMessage .exactlyOnce], []⟩ :=
    ((h2.client (.read (missed := []) rfl (by simp))).client (.delivered (p := .pubRel ⟨7, .success, .empty⟩))).client
      (.wrote (p := .pubComp ⟨7, .success, .empty⟩) (a := 3) (b := 3) rfl)
  have h4 := h3.server (.pubComp (pre := []) (post := []) (a := ⟨7, .success, .empty⟩) rfl rfl rfl rfl)
  simp only [List.append_assoc, List.cons_append, List.nil_append] at h4
  exact h4

/-- first copies only, finished, and given to the handler -/
example : IsTrace inPlainTrace ∧
    (∃ d, Duplex.Story true inPlainTrace d ∧ ofQos .exactlyOnce d.done = [inMessage .exactlyOnce]) ∧
    (∀ p ∈ gotIn inPlainTrace, p.qos = .exactlyOnce → p.dup = false) ∧ ofQos .exactlyOnce (handledIn inPlainTrace) = [inMessage .exactlyOnce] := by
  have hg : gotIn inPlainTrace = [inMessage .exactlyOnce] := rfl
  refine ⟨.tokio resumeOptions 0 inPlainOps rfl, ⟨_, inPlainStory, rfl⟩, fun p hp _ => ?_, rfl⟩
  rw [hg] at hp
  rw [List.mem_singleton.mp hp]; rfl

/-- **C76 is violated**: the first copy of a QoS 2 message is lost with the connection, the server sends it again as it must,
marked as a copy. The client answers, the server is told that the message is done, and the handler never sees it. -/
theorem C76_lost_violated : ∃ tr d, IsTrace tr ∧ Duplex.Story true tr d ∧ ofQos .exactlyOnce d.done = [inMessage .exactlyOnce] ∧
    handledIn tr = [] ∧ d.out = [] ∧ d.net.toClient = [] :=
  ⟨inLostTrace, _, .tokio resumeOptions 0 inLostOps rfl, inLostStory, rfl, rfl, rfl, rfl⟩

end Mqrstt.Props
