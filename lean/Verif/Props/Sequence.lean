import Verif.Proof.Sequence
import Verif.Props.EndToEnd
/-!
# C78: messages arrive in the order in which they were sent

The same world as in C66 and C67. A server that refuses a message may take its next copy, so only stories in which it refuses
none are considered.
-/

namespace Mqrstt.Props
open Mqrstt Mqrstt.Spec _root_.Spec

/-- **C78**, for both clients: if on each resumed session the messages to be sent again were all written before anything
else, then messages are handed on in the order in which they were sent, repetitions of QoS 1 messages aside, and the QoS 2
messages handed on are a subsequence of those sent. Missing: the condition holds always with smol (next theorem), but not
with tokio (see `C78_order_violated`). -/
theorem C78_in_order_partial (o : Options) (tr : List Obs) (h : IsTraceWith o tr) (hf : ResentInFull o.cleanStart tr) (keeps : Bool) (w : World)
    (hw : World.Willing keeps tr w) :
    InOrder (sentIn tr) w.handed ∧ (ofQos .exactlyOnce w.handed).Sublist (ofQos .exactlyOnce (sentIn tr)) := by
  obtain ⟨fl, t, v, hv⟩ := h.vrun
  obtain ⟨firsts, h1, h2, -⟩ := (ordered hw (obeys h) hf hv.conv).order
  refine ⟨⟨firsts, h1, h2⟩, ?_⟩
  rw [h1.two]
  exact h2.filter _

/-- **C78** for smol, without conditions on the client -/
theorem C78_in_order_smol (o : Options) (checks : Bool) (t : Nat) (ops : List SmolOp) (keeps : Bool) (w : World)
    (hw : World.Willing keeps (smolTrace checks o t ops) w) :
    InOrder (sentIn (smolTrace checks o t ops)) w.handed ∧
      (ofQos .exactlyOnce w.handed).Sublist (ofQos .exactlyOnce (sentIn (smolTrace checks o t ops))) :=
  C78_in_order_partial o _ (.smol checks t ops rfl) smol_full keeps w hw

/-! ## a story with repetitions -/

/-- two messages are sent, the connection is lost, the session is resumed and both are sent again -/
def twiceOps : List SmolOp :=
  smolUp ++ [.client (.call (demoPublish .atLeastOnce)), .client (.submit 0), .client (.call (demoPublish .exactlyOnce)), .client (.submit 0),
    .turn .outgoing true (at' 2), .turn .outgoing true (at' 3), .turn .readError true (at' 4),
    .connect ⟨true, [resumedConnAck], true, at' 5⟩]

def firstMessage : Publish := ⟨false, .atLeastOnce, false, ⟨[116], by decide⟩, some 1, .empty, [1, 2, 3]⟩
def secondMessage : Publish := ⟨false, .exactlyOnce, false, ⟨[116], by decide⟩, some 2, .empty, [1, 2, 3]⟩

def twiceTrace : List Obs := smolTrace true resumeOptions 0 twiceOps

theorem twiceTrace_eq : ∃ e₁ e₂ e₃ e₄ r, twiceTrace =
    [.wrote resumeOptions.connectPacket 1 1, .read (.connAck ⟨false, .success, .empty⟩), .delivered (.connAck ⟨false, .success, .empty⟩),
      .connected ⟨false, .success, .empty⟩ 1, .started, .user e₁, .user e₂, .user e₃, .user e₄,
      .wrote (.publish firstMessage) 2 2, .wrote (.publish secondMessage) 3 3, .ended r,
      .wrote resumeOptions.connectPacket 5 5, .read (.connAck ⟨true, .success, .empty⟩), .delivered (.connAck ⟨true, .success, .empty⟩),
      .wrote (.publish { firstMessage with dup := true }) 5 5, .wrote (.publish { secondMessage with dup := true }) 5 5,
      .connected ⟨true, .success, .empty⟩ 5] := ⟨_, _, _, _, _, rfl⟩

/-- of the first connection the server takes only the first message, of the second both -/
theorem twiceStory : World.Willing true twiceTrace
    ⟨[], [.pubAck ⟨1, .success, .empty⟩, .pubRec ⟨2, .success, .empty⟩], [2], true, [firstMessage, firstMessage, secondMessage], true⟩ := by
  obtain ⟨e₁, e₂, e₃, e₄, r, e⟩ := twiceTrace_eq
  rw [e]
  obtain ⟨c, hc, hcl⟩ : ∃ c, resumeOptions.connectPacket = .connect c ∧ c.cleanStart = false := ⟨_, rfl, rfl⟩
  rw [hc]
  have h0 : World.Willing true [] ⟨[], [], [], false, [], false⟩ := .start
  have h1 : World.Willing true _ ⟨[.connect c], [], [], false, [], false⟩ := h0.client (.connect (c := c) (a := 1) (b := 1) 0)
  have h2 : World.Willing true _ ⟨[], [.connAck ⟨false, .success, .empty⟩], [], true, [], false⟩ :=
    h1.server (.accept rfl rfl rfl) (by rintro ⟨p, rest, h, -⟩; simp at h)
  have h3 : World.Willing true _ ⟨[], [], [], true, [], true⟩ := h2.client (.accepted (missed := []) rfl rfl)
  have h4 : World.Willing true _ ⟨[], [], [], true, [], true⟩ := h3.client (.delivered (p := .connAck ⟨false, .success, .empty⟩))
  have h5 : World.Willing true _ ⟨[], [], [], true, [], true⟩ := h4.client (.connected (c := ⟨false, .success, .empty⟩) (t := 1))
  have h6 : World.Willing true _ ⟨[], [], [], true, [], true⟩ := h5.client (.started rfl)
  have h7 : World.Willing true _ ⟨[], [], [], true, [], true⟩ :=
    (((h6.client (.user (e := e₁))).client (.user (e := e₂))).client (.user (e := e₃))).client (.user (e := e₄))
  have h8 : World.Willing true _ ⟨[.publish firstMessage, .publish secondMessage], [], [], true, [], true⟩ :=
    (h7.client (.wrote (a := 2) (b := 2) rfl)).client (.wrote (a := 3) (b := 3) rfl)
  have h9 : World.Willing true _ ⟨[.publish secondMessage], [.pubAck ⟨1, .success, .empty⟩], [], true, [firstMessage], true⟩ :=
    h8.server (.qos1 (p := firstMessage) (rest := [.publish secondMessage]) (a := ⟨1, .success, .empty⟩) rfl rfl rfl)
      (by rintro ⟨p, rest, h, -, -, h2, -⟩; simp at h2)
  have h10 : World.Willing true _ ⟨[.connect c], [], [], true, [firstMessage], false⟩ :=
    (h9.client (.ended (r := r))).client (.connect (c := c) (a := 5) (b := 5) 0)
  have h11 : World.Willing true _ ⟨[], [.connAck ⟨true, .success, .empty⟩], [], true, [firstMessage], false⟩ :=
    h10.server (.accept rfl rfl (by simp [hcl])) (by rintro ⟨p, rest, h, -⟩; simp at h)
  have h12 : World.Willing true _ ⟨[], [], [], true, [firstMessage], true⟩ := h11.client (.accepted (missed := []) rfl rfl)
  have h13 : World.Willing true _ ⟨[], [], [], true, [firstMessage], true⟩ := h12.client (.delivered (p := .connAck ⟨true, .success, .empty⟩))
  have h14 : World.Willing true _ ⟨[.publish { firstMessage with dup := true }, .publish { secondMessage with dup := true }], [], [], true, [firstMessage], true⟩ :=
    (h13.client (.wrote (a := 5) (b := 5) rfl)).client (.wrote (a := 5) (b := 5) rfl)
  have h15 : World.Willing true _ ⟨[.publish { secondMessage with dup := true }], [.pubAck ⟨1, .success, .empty⟩], [], true, [firstMessage, firstMessage], true⟩ :=
    h14.server (.qos1 (p := { firstMessage with dup := true }) (rest := [.publish { secondMessage with dup := true }]) (a := ⟨1, .success, .empty⟩) rfl rfl rfl)
      (by rintro ⟨p, rest, h, -, -, h2, -⟩; simp at h2)
  have h16 : World.Willing true _ ⟨[], [.pubAck ⟨1, .success, .empty⟩, .pubRec ⟨2, .success, .empty⟩], [2], true,
      [firstMessage, firstMessage, secondMessage], true⟩ :=
    h15.server (.qos2 (p := { secondMessage with dup := true }) (rest := []) (a := ⟨2, .success, .empty⟩) rfl rfl rfl List.not_mem_nil)
      (by rintro ⟨p, rest, h, -, -, h2, -⟩; simp at h2)
  have h17 := h16.client (.connected (c := ⟨true, .success, .empty⟩) (t := 5))
  simp only [List.nil_append, List.cons_append] at h17
  exact h17

/-- the first message is handed on twice; the order is right all the same -/
example : sentIn twiceTrace = [firstMessage, secondMessage] ∧ IsTraceWith resumeOptions twiceTrace ∧
    ResentInFull resumeOptions.cleanStart twiceTrace ∧
    World.Willing true twiceTrace
      ⟨[], [.pubAck ⟨1, .success, .empty⟩, .pubRec ⟨2, .success, .empty⟩], [2], true, [firstMessage, firstMessage, secondMessage], true⟩ :=
  ⟨rfl, .smol true 0 twiceOps rfl, smol_full, twiceStory⟩

/-- the wrong order would not do: `InOrder` tells them apart -/
example : ¬ InOrder [firstMessage, secondMessage] [secondMessage, firstMessage, secondMessage] := by
  rintro ⟨firsts, hr, hs⟩
  have h2 : ofQos .exactlyOnce firsts = [secondMessage, secondMessage] := by rw [← hr.two]; rfl
  have h3 : (ofQos .exactlyOnce firsts).Sublist (ofQos .exactlyOnce [firstMessage, secondMessage]) := hs.filter _
  rw [h2] at h3
  have := h3.length_le
  simp [ofQos, firstMessage, secondMessage] at this

/-! ## tokio: a later message overtakes -/

/-- message 1 is written and lost with the connection; on the resumed session it cannot be written again, `connect` reports
success all the same; message 2 is written and received; the connection is lost once more and message 1 is sent again -/
def overtakeOps : List TokioOp :=
  tokioUp ++ [.client (.call (demoPublish .exactlyOnce)), .client (.submit 0), .turn .outgoing 0 true (at' 2), .turn .readError 0 true (at' 3),
    .connect ⟨true, resumedConnAck, false, fun _ => false, true, at' 4⟩, .start,
    .client (.call (demoPublish .exactlyOnce)), .client (.submit 0), .turn .outgoing 0 true (at' 5),
    .arrive [0x50, 0x02, 0x00, 0x02], .turn .read 0 true (at' 6), .turn .readError 0 true (at' 7),
    .connect ⟨true, resumedConnAck, false, fun _ => true, true, at' 8⟩]

def overtakeTrace : List Obs := tokioTrace resumeOptions 0 overtakeOps

theorem overtakeTrace_eq : ∃ e₁ e₂ e₃ e₄ r₁ r₂, overtakeTrace =
    [.wrote resumeOptions.connectPacket 1 1, .read (.connAck ⟨false, .success, .empty⟩), .delivered (.connAck ⟨false, .success, .empty⟩),
      .connected ⟨false, .success, .empty⟩ 1, .started, .user e₁, .user e₂, .wrote (.publish onceMessage) 2 2, .ended r₁,
      .wrote resumeOptions.connectPacket 4 4, .read (.connAck ⟨true, .success, .empty⟩), .delivered (.connAck ⟨true, .success, .empty⟩),
      .connected ⟨true, .success, .empty⟩ 4, .started, .user e₃, .user e₄, .wrote (.publish secondMessage) 5 5,
      .read (.pubRec ⟨2, .success, .empty⟩), .delivered (.pubRec ⟨2, .success, .empty⟩), .wrote (.pubRel ⟨2, .success, .empty⟩) 6 6, .ended r₂,
      .wrote resumeOptions.connectPacket 8 8, .read (.connAck ⟨true, .success, .empty⟩), .delivered (.connAck ⟨true, .success, .empty⟩),
      .wrote (.publish { onceMessage with dup := true }) 8 8, .wrote (.pubRel ⟨2, .success, .empty⟩) 8 8,
      .connected ⟨true, .success, .empty⟩ 8] := ⟨_, _, _, _, _, _, rfl⟩

theorem overtakeStory : ∃ w, World.Willing true overtakeTrace w ∧ w.handed = [secondMessage, onceMessage] := by
  obtain ⟨e₁, e₂, e₃, e₄, r₁, r₂, e⟩ := overtakeTrace_eq
  rw [e]
  obtain ⟨c, hc, hcl⟩ : ∃ c, resumeOptions.connectPacket = .connect c ∧ c.cleanStart = false := ⟨_, rfl, rfl⟩
  rw [hc]
  have h0 : World.Willing true [] ⟨[], [], [], false, [], false⟩ := .start
  have h1 : World.Willing true _ ⟨[.connect c], [], [], false, [], false⟩ := h0.client (.connect (c := c) (a := 1) (b := 1) 0)
  have h2 : World.Willing true _ ⟨[], [.connAck ⟨false, .success, .empty⟩], [], true, [], false⟩ :=
    h1.server (.accept rfl rfl rfl) (by rintro ⟨p, rest, h, -⟩; simp at h)
  have h3 : World.Willing true _ ⟨[], [], [], true, [], true⟩ := h2.client (.accepted (missed := []) rfl rfl)
  have h4 : World.Willing true _ ⟨[], [], [], true, [], true⟩ := h3.client (.delivered (p := .connAck ⟨false, .success, .empty⟩))
  have h5 : World.Willing true _ ⟨[], [], [], true, [], true⟩ := h4.client (.connected (c := ⟨false, .success, .empty⟩) (t := 1))
  have h6 : World.Willing true _ ⟨[], [], [], true, [], true⟩ := h5.client (.started rfl)
  have h7 : World.Willing true _ ⟨[], [], [], true, [], true⟩ := (h6.client (.user (e := e₁))).client (.user (e := e₂))
  have h8 : World.Willing true _ ⟨[.publish onceMessage], [], [], true, [], true⟩ := h7.client (.wrote (a := 2) (b := 2) rfl)
  have h9 : World.Willing true _ ⟨[.connect c], [], [], true, [], false⟩ :=
    (h8.client (.ended (r := r₁))).client (.connect (c := c) (a := 4) (b := 4) 0)
  have h10 : World.Willing true _ ⟨[], [.connAck ⟨true, .success, .empty⟩], [], true, [], false⟩ :=
    h9.server (.accept rfl rfl (by simp [hcl])) (by rintro ⟨p, rest, h, -⟩; simp at h)
  have h11 : World.Willing true _ ⟨[], [], [], true, [], true⟩ := h10.client (.accepted (missed := []) rfl rfl)
  have h12 : World.Willing true _ ⟨[], [], [], true, [], true⟩ :=
    ((h11.client (.delivered (p := .connAck ⟨true, .success, .empty⟩))).client (.connected (c := ⟨true, .success, .empty⟩) (t := 4))).client (.started rfl)
  have h13 : World.Willing true _ ⟨[.publish secondMessage], [], [], true, [], true⟩ :=
    ((h12.client (.user (e := e₃))).client (.user (e := e₄))).client (.wrote (a := 5) (b := 5) rfl)
  have h14 : World.Willing true _ ⟨[], [.pubRec ⟨2, .success, .empty⟩], [2], true, [secondMessage], true⟩ :=
    h13.server (.qos2 (p := secondMessage) (rest := []) (a := ⟨2, .success, .empty⟩) rfl rfl rfl List.not_mem_nil)
      (by rintro ⟨p, rest, h, -, -, h2, -⟩; simp at h2)
  have h15 : World.Willing true _ ⟨[], [], [2], true, [secondMessage], true⟩ :=
    (h14.client (.read (missed := []) rfl (by intro c; simp))).client (.delivered (p := .pubRec ⟨2, .success, .empty⟩))
  have h16 : World.Willing true _ ⟨[.pubRel ⟨2, .success, .empty⟩], [], [2], true, [secondMessage], true⟩ :=
    (h15.client (.wrote (a := 6) (b := 6) rfl)).client (.ended (r := r₂))
  have h17 : World.Willing true _ ⟨[.connect c], [], [2], true, [secondMessage], false⟩ := h16.client (.connect (c := c) (a := 8) (b := 8) 0)
  have h18 : World.Willing true _ ⟨[], [.connAck ⟨true, .success, .empty⟩], [2], true, [secondMessage], false⟩ :=
    h17.server (.accept rfl rfl (by simp [hcl])) (by rintro ⟨p, rest, h, -⟩; simp at h)
  have h19 : World.Willing true _ ⟨[], [], [2], true, [secondMessage], true⟩ := h18.client (.accepted (missed := []) rfl rfl)
  have h20 : World.Willing true _ ⟨[.publish { onceMessage with dup := true }, .pubRel ⟨2, .success, .empty⟩], [], [2], true, [secondMessage], true⟩ :=
    ((h19.client (.delivered (p := .connAck ⟨true, .success, .empty⟩))).client (.wrote (a := 8) (b := 8) rfl)).client (.wrote (a := 8) (b := 8) rfl)
  have h21 := h20.client (.connected (c := ⟨true, .success, .empty⟩) (t := 8))
  have h22 : World.Willing true _ ⟨[.pubRel ⟨2, .success, .empty⟩], [.pubRec ⟨1, .success, .empty⟩], [2, 1], true, [secondMessage, onceMessage], true⟩ :=
    h21.server (.qos2 (p := { onceMessage with dup := true }) (rest := [.pubRel ⟨2, .success, .empty⟩]) (a := ⟨1, .success, .empty⟩) rfl rfl rfl
      (by decide)) (by rintro ⟨p, rest, h, -, -, h2, -⟩; simp at h2)
  simp only [List.nil_append, List.cons_append] at h22
  exact ⟨_, h22, rfl⟩

/-- **C78 is false of the code on tokio**: with a server that refuses nothing, the message sent second is handed on first.
When a packet cannot be written again on a resumed session `connect` reports success all the same (C52), `run` goes on to
send newer messages, and the older one follows only on the next connection. -/
theorem C78_order_violated : ∃ tr w, (∃ t ops, tr = tokioTrace resumeOptions t ops) ∧ World.Willing true tr w ∧
    sentIn tr = [onceMessage, secondMessage] ∧ w.handed = [secondMessage, onceMessage] ∧ ¬ InOrder (sentIn tr) w.handed := by
  obtain ⟨w, h1, h2⟩ := overtakeStory
  have hs : sentIn overtakeTrace = [onceMessage, secondMessage] := rfl
  refine ⟨overtakeTrace, w, ⟨0, overtakeOps, rfl⟩, h1, hs, h2, ?_⟩
  rw [h2, hs]
  rintro ⟨firsts, hr, hsub⟩
  have h3 : ofQos .exactlyOnce firsts = [secondMessage, onceMessage] := by rw [← hr.two]; rfl
  have h4 : (ofQos .exactlyOnce firsts).Sublist (ofQos .exactlyOnce [onceMessage, secondMessage]) := hsub.filter _
  rw [h3] at h4
  have h5 := h4.map (·.pkid)
  revert h5
  decide

end Mqrstt.Props
