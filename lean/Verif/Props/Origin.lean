import Verif.Proof.Origin
import Verif.Props.Sender
import Verif.Props.Legal
import Verif.Props.Wire
import Verif.Props.EndToEnd
/-!
# Why packets are written (C69), and that they are legal (C70)
-/

namespace Mqrstt.Props
open Mqrstt Mqrstt.Spec _root_.Spec

/-! ## C69 -/

/-- **C69.** Every packet a client ever writes has a reason: it is the CONNECT of the options, it was asked for by a call,
it is a copy of a message sent before, it answers something the client has read, or it belongs to the keep-alive. -/
theorem C69_origin (o : Options) (tr : List Obs) (h : IsTraceWith o tr) (pre post : List Obs) (p : Packet) (a b : Nat)
    (e : tr = pre ++ .wrote p a b :: post) : Origin o pre p := by
  have hsend := C65_sender o tr h pre post p a b e
  have hroot := rooted o.cleanStart pre
  obtain ⟨fl, t, w, hv⟩ := h.vrun
  obtain ⟨v1, v2, tr1, o1, o2, tr2, h1, h2, -, h4, -⟩ := hv.split e
  obtain ⟨hsrc, -⟩ := h2.source o1 _ o2 rfl p a b rfl
  have inPre : ∀ {x : Obs}, x ∈ o1 → x ∈ pre := fun hx => by rw [h4]; exact List.mem_append_right _ hx
  cases hsrc with
  | connect =>
    subst e
    cases h with
    | tokio t ops h => exact .connect (tokio_connect h.symm)
    | smol checks t ops h => exact .connect (k := o.keepAlive) (smol_connect h.symm)
  | queue hq => exact .asked (by rw [h4]; exact askedIn_more (h1.asked p (.inr hq)) _)
  | resent hr =>
    cases p with
    | publish p =>
      have hd : p.dup = true := hr
      rcases hsend with ⟨-, h, -⟩ | ⟨-, h, -⟩ | ⟨-, -, q, hq, rfl⟩
      · rw [hd] at h; simp at h
      · rw [hd] at h; simp at h
      · rcases hroot.again q hq with hq | ⟨g1, g2, _, _, g3⟩
        · obtain ⟨g1, g2, _, _, g3⟩ := hroot.unacked q hq
          exact .copy g3 g1 g2
        · exact .copy g3 g1 g2
    | pubRel r =>
      obtain ⟨id, rfl⟩ := hr
      obtain ⟨a, p, t, t', rfl, g2, g3, g4, g5, g6⟩ := hroot.rels id hsend.1
      exact .pubRel g2 g3 g4 g5 g6
    | _ => exact absurd hr id
  | pubAck h hq hi => exact .pubAck (inPre h) hq hi
  | pubRec h hq hi => exact .pubRec (inPre h) hq hi
  | pubComp h => exact .pubComp (inPre h)
  | pingReq => exact .pingReq
  | timeout => exact .timeout

/-- the seven packets of C65's history: two CONNECTs, two calls, PUBREL, a copy and PUBREL again -/
example : (writtenIn (smolTrace true resumeOptions 0 smolTwoPhases)).map (fun p => p.type)
    = [.connect, .publish, .publish, .pubRel, .connect, .publish, .pubRel] := rfl

/-! ## C70 -/

theorem empty_legal (es : List Entry) : PropsWF es Props.empty := by
  refine ⟨?_, ?_, ?_, ?_, ?_, ?_, ?_⟩ <;> simp [Props.empty]

/-- what both writers encode as MQTT says -/
structure Fine (p : Packet) : Prop where
  wf : WF p
  fits : p.bodyWireLen ≤ 268435455
  auth : ¬ EmptyAuthData p
  assigned : ¬ HasAssignedId p
  foreign : ¬ ForeignSubId p

theorem Fine.written {p : Packet} (h : Fine p) :
    (∃ bs, p.write = .ok bs ∧ PacketSays p bs) ∧ (∃ bs n, p.asyncWrite = .ok (bs, n) ∧ PacketSays p bs) := by
  have hb := BodyOk.of h.wf h.fits h.auth
  obtain ⟨n, e, -⟩ := hb.asyncWrite_frame h.assigned
  obtain ⟨h1, h2⟩ := C59_writers_conform_partial p h.wf h.auth h.foreign
  exact ⟨⟨_, hb.write_frame, h1 _ hb.write_frame⟩, ⟨_, n, e, h2 h.assigned _ _ e⟩⟩

theorem fine_of_section {p : Packet} {es : List Entry} {P : Props} (wf : WF p) (hf : p.bodyWireLen ≤ 268435455) (hp : propSets p = [P])
    (hw : PropsWF es P) (h1 : .single .authenticationData ∉ es) (h2 : .single .assignedClientIdentifier ∉ es)
    (h3 : ¬ ForeignSubId p) : Fine p := by
  refine ⟨wf, hf, ?_, ?_, h3⟩
  · rintro ⟨Q, hQ, hq⟩
    rw [hp, List.mem_singleton] at hQ
    subst hQ
    exact h1 (hw.listed _ (by rw [hq]; simp))
  · rintro ⟨Q, hQ, hq⟩
    rw [hp, List.mem_singleton] at hQ
    subst hQ
    exact h2 (hw.listed _ hq)

/-- a legal packet of a size that can be expressed -/
theorem Legal.fine {p : Packet} (h : Legal p) (hf : p.bodyWireLen ≤ 268435455) : Fine p := by
  cases p with
  | publish p => exact fine_of_section h.2.2.2.2 hf rfl h.2.2.2.2.2.2 (by decide) (by decide) (fun h => h)
  | subscribe p => exact fine_of_section h.2.2 hf rfl h.2.2.1 (by decide) (by decide) (fun h => h)
  | unsubscribe p => exact fine_of_section h.2 hf rfl h.2.1 (by decide) (by decide) (fun h => h)
  | pubAck a => exact fine_of_section h hf rfl h.2 (by decide) (by decide) (fun h => h)
  | pubRec a => exact fine_of_section h hf rfl h.2 (by decide) (by decide) (fun h => h)
  | pubRel a => exact fine_of_section h hf rfl h.2 (by decide) (by decide) (fun h => h)
  | pubComp a => exact fine_of_section h hf rfl h.2 (by decide) (by decide) (fun h => h)
  | pingReq => exact ⟨trivial, hf, by rintro ⟨Q, hQ, -⟩; simp [propSets] at hQ, by rintro ⟨Q, hQ, -⟩; simp [propSets] at hQ, fun h => h⟩
  | disconnect d => exact fine_of_section h hf rfl h.2 (by decide) (by decide) (fun h => h)
  | _ => exact absurd h id

theorem ack_fits (id : UInt16) :
    (Packet.pubAck ⟨id, .success, .empty⟩).bodyWireLen ≤ 268435455 ∧
    (Packet.pubRec ⟨id, .success, .empty⟩).bodyWireLen ≤ 268435455 ∧
    (Packet.pubRel ⟨id, .success, .empty⟩).bodyWireLen ≤ 268435455 ∧
    (Packet.pubComp ⟨id, .success, .empty⟩).bodyWireLen ≤ 268435455 := by
  refine ⟨?_, ?_, ?_, ?_⟩ <;> exact (by decide : (2 : Nat) ≤ 268435455)

theorem ask_ident {q : Request} {id : Option UInt16} {p : Packet} (h : Asks q id p) (h0 : id ≠ some 0) : IdentNonzero p := by
  cases h with
  | qos0 topic retain payload props p h1 h2 h3 h4 h5 h6 h7 => simp [IdentNonzero, h5]
  | qos topic qos hne retain payload props p id h1 h2 h3 h4 h5 h6 h7 => simpa [IdentNonzero, h5] using h0
  | subscribe topics props p id h1 h2 h3 => simp only [IdentNonzero]; intro hz; simp_all
  | unsubscribe topics props p id h1 h2 h3 => simp only [IdentNonzero]; intro hz; simp_all
  | disconnect r P p h1 h2 => trivial

theorem build_authData (id : Str) (calls : List Setter) : (Options.build id calls).authData = none := by
  have key : ∀ (calls : List Setter) (o : Options), o.authData = none →
      (calls.foldl (fun o c => (o.set c).1) o).authData = none := by
    intro calls
    induction calls with
    | nil => intro o h; exact h
    | cons c cs ih =>
      intro o h
      refine ih _ ?_
      cases c with
      | maxPacketSize n => simp only [Options.set]; split <;> exact h
      | _ => exact h
  exact key _ _ rfl

/-- a legal CONNECT made from options -/
theorem connect_fine {clientId : Str} {calls : List Setter} {c : Connect} {k : Nat}
    (hc : .connect c = { Options.build clientId calls with keepAlive := k }.connectPacket) (hl : LegalConnect c) : Fine (.connect c) := by
  refine ⟨hl.1, hl.2.2.2.2.2.2, ?_, ?_, fun h => h⟩
  · rintro ⟨P, hP, hq⟩
    cases hc
    simp only [propSets, List.mem_cons] at hP
    rcases hP with rfl | hP
    · simp [Options.connectProps, build_authData] at hq
    · split at hP
      · rename_i w hw
        simp only [List.mem_singleton] at hP
        subst hP
        exact absurd ((hl.1.2.2.1 w hw).1.listed _ (by rw [hq]; simp)) (by decide)
      · simp at hP
  · rintro ⟨P, hP, hq⟩
    cases hc
    simp only [propSets, List.mem_cons] at hP
    rcases hP with rfl | hP
    · exact absurd (hl.1.1.listed _ hq) (by decide)
    · split at hP
      · rename_i w hw
        simp only [List.mem_singleton] at hP
        subst hP
        exact absurd ((hl.1.2.2.1 w hw).1.listed _ hq) (by decide)
      · simp at hP

/-- **C70.** If the options make a legal CONNECT, every call had legal arguments (C58) and the server used legal
identifiers, everything a client writes in whatever history is a legal packet with a legal identifier, and the bytes which
either writer makes of it are that packet in MQTT's format. -/
theorem C70_wire_legal (clientId : Str) (calls : List Setter) (tr : List Obs)
    (h : IsTraceWith (Options.build clientId calls) tr)
    (hopt : ∀ c, (Options.build clientId calls).connectPacket = .connect c → LegalConnect c)
    (hcalls : ∀ q id p, .user (.called q id p) ∈ tr → LegalRequest q ∧
      ∀ r P, q = .disconnect r P → (Packet.disconnect ⟨r, P⟩).bodyWireLen ≤ 268435455)
    (hserver : ∀ p, .read p ∈ tr → IdentNonzero p)
    (p : Packet) (a b : Nat) (hw : .wrote p a b ∈ tr) :
    (Legal p ∨ ∃ c, p = .connect c ∧ LegalConnect c) ∧ IdentNonzero p ∧
    (∃ bs, p.write = .ok bs ∧ PacketSays p bs) ∧ (∃ bs n, p.asyncWrite = .ok (bs, n) ∧ PacketSays p bs) := by
  obtain ⟨fl, t, w, hv⟩ := h.vrun
  have asked : ∀ p, AskedIn tr p → Legal p ∧ p.bodyWireLen ≤ 268435455 ∧ IdentNonzero p := by
    rintro p ⟨q, id, hm⟩
    obtain ⟨sops, s', hs⟩ := hv.called hm
    obtain ⟨h1, h2⟩ := hcalls q id p hm
    obtain ⟨g1, ⟨bs, g2⟩, -⟩ := C58_accepted_is_legal_partial clientId calls sops q id p s' h1 h2 hs
    obtain ⟨g4, -⟩ := C49_call_content _ _ _ _ _ hs
    refine ⟨g1, ?_, ask_ident g4 ?_⟩
    · refine Nat.le_of_not_lt fun hl => ?_
      rw [(Packet.write_overflow p hl).1] at g2
      cases g2
    · rintro rfl
      have := ((C21_ids_valid _ sops q 0 s').1 p hs).1
      simp at this
  have fresh : ∀ q a b, .wrote (.publish q) a b ∈ tr → q.dup = false → AskedIn tr (.publish q) := by
    intro q a b hm hd
    obtain ⟨pre, post, e⟩ := List.append_of_mem hm
    have := C69_origin _ tr h pre post _ a b e
    cases this with
    | asked h => rw [e]; exact askedIn_more h _
    | copy => simp at hd
  have key : ∀ {p : Packet}, Legal p → p.bodyWireLen ≤ 268435455 → IdentNonzero p →
      (Legal p ∨ ∃ c, p = .connect c ∧ LegalConnect c) ∧ IdentNonzero p ∧
      (∃ bs, p.write = .ok bs ∧ PacketSays p bs) ∧ (∃ bs n, p.asyncWrite = .ok (bs, n) ∧ PacketSays p bs) :=
    fun h1 h2 h3 => ⟨.inl h1, h3, (Legal.fine h1 h2).written⟩
  obtain ⟨pre, post, e⟩ := List.append_of_mem hw
  have inTr : ∀ {x : Obs}, x ∈ pre → x ∈ tr := fun hx => by rw [e]; exact List.mem_append_left _ hx
  have horig := C69_origin _ tr h pre post p a b e
  cases horig with
  | connect hc =>
    rename_i c k
    have hl : LegalConnect c := by
      cases hc
      obtain ⟨l1, l2, l3, l4, l5, l6, l7⟩ := hopt _ rfl
      exact ⟨l1, l2, l3, l4, l5, l6, l7⟩
    exact ⟨.inr ⟨c, rfl, hl⟩, trivial, (connect_fine hc hl).written⟩
  | asked hm =>
    obtain ⟨h1, h2, h3⟩ := asked p (by rw [e]; exact askedIn_more hm _)
    exact key h1 h2 h3
  | copy hm hq hd =>
    obtain ⟨h1, h2, h3⟩ := asked _ (fresh _ _ _ (inTr hm) hd)
    exact key h1 h2 h3
  | pubAck hr hq hi =>
    have := hserver _ (inTr hr)
    refine key (p := .pubAck _) ⟨by simp [Reason.pubAck], empty_legal _⟩ (ack_fits _).1 ?_
    rintro rfl
    exact this hi
  | pubRec hr hq hi =>
    have := hserver _ (inTr hr)
    refine key (p := .pubRec _) ⟨by simp [Reason.pubRec], empty_legal _⟩ (ack_fits _).2.1 ?_
    rintro rfl
    exact this hi
  | pubComp hr =>
    exact key (p := .pubComp _) ⟨by simp [Reason.pubComp], empty_legal _⟩ (ack_fits _).2.2.2
      (show IdentNonzero (.pubComp _) from (hserver (.pubRel _) (inTr hr) :))
  | pubRel hr _ hw hq hi =>
    exact key (p := .pubRel _) ⟨by simp [Reason.pubRel], empty_legal _⟩ (ack_fits _).2.2.1
      (show IdentNonzero (.pubRel _) from (hserver (.pubRec _) (inTr hr) :))
  | pingReq => exact key trivial (by decide) trivial
  | timeout => exact key (p := .disconnect _) ⟨by decide, empty_legal _⟩ (by decide) trivial

theorem resumeOptions_legal (c : Connect) (h : resumeOptions.connectPacket = .connect c) : LegalConnect c := by
  cases h
  refine ⟨⟨?_, by decide, ?_, ?_, ?_⟩, by unfold NoNull; decide, ?_, ?_, by decide, by decide, by decide⟩
  · refine ⟨?_, by decide, by decide, ?_, ?_, ?_, by decide⟩
    · intro p; cases p <;> decide
    · intro p v; cases p <;> (intro hv; first | (cases hv; done) | (cases hv; exact trivial) | (cases hv; decide))
    · decide
    · decide
  · intro w hw; cases hw
  · intro w hw; cases hw
  · intro w hw; cases hw
  · intro w hw; cases hw
  · intro w hw; cases hw

/-- the hypotheses hold of C66's story: a message of QoS 2, sent again after the connection was lost -/
theorem onceTrace_legal : IsTraceWith resumeOptions onceTrace ∧ (∀ c, resumeOptions.connectPacket = .connect c → LegalConnect c) ∧
    (∀ q id p, .user (.called q id p) ∈ onceTrace → LegalRequest q ∧
      ∀ r P, q = .disconnect r P → (Packet.disconnect ⟨r, P⟩).bodyWireLen ≤ 268435455) ∧
    (∀ p, .read p ∈ onceTrace → IdentNonzero p) := by
  refine ⟨.tokio _ _ rfl, resumeOptions_legal, ?_, ?_⟩
  · have e : ∃ p₂ r, onceTrace = [.wrote resumeOptions.connectPacket 1 1, .read (.connAck ⟨false, .success, .empty⟩),
      .delivered (.connAck ⟨false, .success, .empty⟩), .connected ⟨false, .success, .empty⟩ 1, .started,
      .user (.called (demoPublish .exactlyOnce) (some 1) (.publish onceMessage)), .user (.submitted p₂),
      .wrote (.publish onceMessage) 2 2, .ended r,
      .wrote resumeOptions.connectPacket 4 4, .read (.connAck ⟨true, .success, .empty⟩), .delivered (.connAck ⟨true, .success, .empty⟩),
      .wrote (.publish { onceMessage with dup := true }) 4 4, .connected ⟨true, .success, .empty⟩ 4, .started,
      .read (.pubRec ⟨1, .success, .empty⟩), .delivered (.pubRec ⟨1, .success, .empty⟩), .wrote (.pubRel ⟨1, .success, .empty⟩) 5 5,
      .read (.pubComp ⟨1, .success, .empty⟩), .delivered (.pubComp ⟨1, .success, .empty⟩)] := ⟨_, _, rfl⟩
    obtain ⟨p₂, r, e⟩ := e
    intro q id p hm
    rw [e] at hm
    simp only [List.mem_cons, Obs.user.injEq, reduceCtorEq, false_or, Event.called.injEq, or_false, List.not_mem_nil] at hm
    obtain ⟨rfl, -, -⟩ := hm
    refine ⟨⟨⟨by unfold NoNull; decide, by decide, by decide⟩, by decide, by decide, rfl, empty_legal _⟩, ?_⟩
    intro r P hr
    cases hr
  · obtain ⟨e₁, e₂, r, e⟩ := onceTrace_eq
    intro p hm
    rw [e] at hm
    simp at hm
    rcases hm with rfl | rfl | rfl | rfl <;> simp [IdentNonzero]

example : IsTraceWith resumeOptions onceTrace := onceTrace_legal.1

/-! Without the conditions: what is not legal in the calls or the options is written all the same (C58). -/

/-- the receive maximum of 0, which 3.1.2.11.3 forbids -/
def noReceiveOptions : Options := Options.build ⟨[97], by decide⟩ [.receiveMax 0, .sendMax 2]

/-- **C70, why the conditions are there.** A message to a topic with a wildcard is written, and so is a CONNECT with a receive
maximum of 0. -/
theorem C70_legal_use_needed :
    (∃ tr p a b, IsTraceWith legalOptions tr ∧ .wrote p a b ∈ tr ∧ p.type = .publish ∧ ¬ Legal p) ∧
    (∃ tr c a b, IsTraceWith noReceiveOptions tr ∧ .wrote (.connect c) a b ∈ tr ∧ ¬ LegalConnect c) := by
  refine ⟨⟨tokioTrace legalOptions 0 (tokioUp ++ [.client (.call wildcardPublish), .client (.submit 0),
    .turn .outgoing 0 true (at' 2)]), .publish ⟨false, .atMostOnce, false, ⟨[0x23], by decide⟩, none, .empty, []⟩, 2, 2,
    .tokio _ _ rfl, ?_, rfl, ?_⟩, ⟨tokioTrace noReceiveOptions 0 tokioUp, _, 1, 1, .tokio _ _ rfl, .head _, ?_⟩⟩
  · exact .tail _ (.tail _ (.tail _ (.tail _ (.tail _ (.tail _ (.tail _ (.head _)))))))
  · rintro ⟨⟨-, h, -⟩, -⟩; exact h (by simp)
  · rintro ⟨-, -, -, -, h, -⟩; exact h rfl

end Mqrstt.Props
