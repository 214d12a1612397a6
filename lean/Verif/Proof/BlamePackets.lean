import Verif.Proof.Blame
/-!
# The errors of the decoder, packet by packet (C110)
-/

namespace Mqrstt
open Mqrstt.Spec _root_.Spec Mqrstt.Props

/-! ## the decoder that works on a buffer -/

/-- the error is justified, or one of the known slips -/
def BufferBlame (k : PacketType) (b : Bytes) (e : DeErr) : Prop := Justified k b.length b e ∨ BufferSlip k b.length b e

theorem bufferFair (k : PacketType) : Fair (BufferBlame k) where
  malformed _ := .inl trivial
  info _ := .inl trivial
  qos _ _ h := .inl h
  text _ h := .inl h
  short _ _ _ h1 h2 := .inl ⟨h1, h2⟩

/-- what the readers of the properties of the packets have in common -/
theorem bufferSection {k : PacketType} {sp : Props.SyncSpec} {s : Spec.Section} (hs : s ∈ sectionsOf k) (hk : sp.packet = k)
    (ht : TableOk s sp.entries)
    (hn : ∀ t, Entry.select sp.entries t = none → s ∉ carriers t ∨ (k = .subAck ∧ t = .reasonString))
    (hl : ∀ p, sp.dupLabel p = p ∨ (p = .reasonString ∧
      (k = .auth ∧ sp.dupLabel p = .sessionExpiryInterval ∨ k = .unsubAck ∧ sp.dupLabel p = .subscriptionIdentifier)))
    (hi : ∀ p ∈ sp.inverted, k = .connect ∧ p = .payloadFormatIndicator ∧ sp.dupLabel p = p) :
    Blames (BufferBlame k) (Props.syncRead sp) := by
  have hrep : ∀ p, Entry.single p ∈ sp.entries → repeatable s p = false := by
    intro p hp
    obtain ⟨h1, h2, -⟩ := ht _ hp
    cases p <;> cases s <;> first | rfl | exact absurd rfl h1 | exact absurd rfl (h2 rfl)
  refine syncRead_blames (s := s) ⟨bufferFair k, ht, ?_, ?_, ?_, ?_⟩ ?_
  · intro b items v hf hv
    exact .inl ⟨items, hf, hv⟩
  · intro b items t hf hsel
    rw [hk]
    rcases hn t hsel with h | ⟨rfl, rfl⟩
    · exact .inl ⟨rfl, s, items, hs, hf, h⟩
    · exact .inr (.inr (.inl ⟨rfl, rfl, rfl, items, hf⟩))
  · intro b items p hp hf hd
    have hj : Justified k b.length b (.duplicateProperty p) := ⟨s, items, hs, hf, hd, hrep p hp⟩
    rcases hl p with h | ⟨rfl, ⟨rfl, h⟩ | ⟨rfl, h⟩⟩
    · rw [h]; exact .inl hj
    · rw [h]; exact .inr (.inr (.inr (.inl ⟨rfl, rfl, hj⟩)))
    · rw [h]; exact .inr (.inr (.inr (.inr (.inl ⟨rfl, rfl, hj⟩))))
  · intro b items p hp hf
    obtain ⟨rfl, rfl, h⟩ := hi p hp
    rw [h]
    exact .inr (.inr (.inr (.inr (.inr ⟨rfl, rfl, items, hf⟩))))
  · intro p hp
    obtain ⟨-, rfl, -⟩ := hi p hp
    cases s <;> rfl

theorem tableOk_of {s : Spec.Section} {es : List Entry}
    (h : es.all (fun e => match e with
      | .single p => decide (p ≠ .userProperty ∧ (p = .subscriptionIdentifier → s ≠ .publish) ∧
          (¬ (s = .subAck ∧ p = .subscriptionIdentifier) → s ∈ carriers p))
      | .subIdList => decide (s = .publish)
      | .user => decide (s ∈ carriers .userProperty)) = true) : TableOk s es := by
  intro e he
  have := List.all_eq_true.1 h e he
  cases e <;> exact of_decide_eq_true this

theorem connectProps_blames : Blames (BufferBlame .connect) (Props.syncRead connectSync) :=
  bufferSection (s := .connect) (by decide) rfl (tableOk_of (by decide)) (fun t => by cases t <;> decide)
    (fun _ => .inl rfl) (fun p h => by cases h)
theorem willProps_blames : Blames (BufferBlame .connect) (Props.syncRead willSync) :=
  bufferSection (s := .will) (by decide) rfl (tableOk_of (by decide)) (fun t => by cases t <;> decide)
    (fun _ => .inl rfl) (fun p h => by
      have : p = .payloadFormatIndicator := by simpa [willSync] using h
      subst this; exact ⟨rfl, rfl, rfl⟩)
theorem connAckProps_blames : Blames (BufferBlame .connAck) (Props.syncRead connAckSync) :=
  bufferSection (s := .connAck) (by decide) rfl (tableOk_of (by decide)) (fun t => by cases t <;> decide)
    (fun _ => .inl rfl) (fun p h => by cases h)
theorem publishProps_blames : Blames (BufferBlame .publish) (Props.syncRead publishSync) :=
  bufferSection (s := .publish) (by decide) rfl (tableOk_of (by decide)) (fun t => by cases t <;> decide)
    (fun _ => .inl rfl) (fun p h => by cases h)
theorem pubAckProps_blames : Blames (BufferBlame .pubAck) (Props.syncRead pubAckSync) :=
  bufferSection (s := .pubAck) (by decide) rfl (tableOk_of (by decide)) (fun t => by cases t <;> decide)
    (fun _ => .inl rfl) (fun p h => by cases h)
theorem pubRecProps_blames : Blames (BufferBlame .pubRec) (Props.syncRead pubRecSync) :=
  bufferSection (s := .pubRec) (by decide) rfl (tableOk_of (by decide)) (fun t => by cases t <;> decide)
    (fun _ => .inl rfl) (fun p h => by cases h)
theorem pubRelProps_blames : Blames (BufferBlame .pubRel) (Props.syncRead pubRelSync) :=
  bufferSection (s := .pubRel) (by decide) rfl (tableOk_of (by decide)) (fun t => by cases t <;> decide)
    (fun _ => .inl rfl) (fun p h => by cases h)
theorem pubCompProps_blames : Blames (BufferBlame .pubComp) (Props.syncRead pubCompSync) :=
  bufferSection (s := .pubComp) (by decide) rfl (tableOk_of (by decide)) (fun t => by cases t <;> decide)
    (fun _ => .inl rfl) (fun p h => by cases h)
theorem subscribeProps_blames : Blames (BufferBlame .subscribe) (Props.syncRead subscribeSync) :=
  bufferSection (s := .subscribe) (by decide) rfl (tableOk_of (by decide)) (fun t => by cases t <;> decide)
    (fun _ => .inl rfl) (fun p h => by cases h)
theorem subAckProps_blames : Blames (BufferBlame .subAck) (Props.syncRead subAckSync) :=
  bufferSection (s := .subAck) (by decide) rfl (tableOk_of (by decide)) (fun t => by cases t <;> decide)
    (fun _ => .inl rfl) (fun p h => by cases h)
theorem unsubscribeProps_blames : Blames (BufferBlame .unsubscribe) (Props.syncRead unsubscribeSync) :=
  bufferSection (s := .unsubscribe) (by decide) rfl (tableOk_of (by decide)) (fun t => by cases t <;> decide)
    (fun _ => .inl rfl) (fun p h => by cases h)
theorem unsubAckProps_blames : Blames (BufferBlame .unsubAck) (Props.syncRead unsubAckSync) :=
  bufferSection (s := .unsubAck) (by decide) rfl (tableOk_of (by decide)) (fun t => by cases t <;> decide)
    (fun p => by cases p <;> decide) (fun p h => by cases h)
theorem disconnectProps_blames : Blames (BufferBlame .disconnect) (Props.syncRead disconnectSync) :=
  bufferSection (s := .disconnect) (by decide) rfl (tableOk_of (by decide)) (fun t => by cases t <;> decide)
    (fun _ => .inl rfl) (fun p h => by cases h)
theorem authProps_blames : Blames (BufferBlame .auth) (Props.syncRead authSync) :=
  bufferSection (s := .auth) (by decide) rfl (tableOk_of (by decide)) (fun t => by cases t <;> decide)
    (fun p => by cases p <;> decide) (fun p h => by cases h)

theorem reason_error {k : PacketType} {v : UInt8} {e : DeErr} (h : Reason.fromU8 (codeNames k) v = .error e) :
    e = .unknownProperty v ∧ v ∉ reasonCodes k := by
  constructor
  · unfold Reason.fromU8 at h
    split at h <;> cases h
    rfl
  · intro hv
    obtain ⟨r, hr⟩ := (C07_reason_codes k).1 v |>.2 hv
    rw [hr] at h
    cases h

theorem reason_blames {k : PacketType} (hk : reasonCodes k ≠ []) : Blames (BufferBlame k) (Reason.read (codeNames k)) := by
  constructor
  · intro b e h pre post
    cases b with
    | nil => cases h; exact (bufferFair k).short _ _ _ (by omega) (by omega)
    | cons v b =>
      rw [Reason.read_cons] at h
      cases hf : Reason.fromU8 (codeNames k) v with
      | ok r => rw [hf] at h; cases h
      | error e' =>
        rw [hf] at h
        cases h
        obtain ⟨rfl, hv⟩ := reason_error hf
        exact .inr (.inl ⟨by simp, hv, hk⟩)
  · intro b a rest h
    cases b with
    | nil => cases h
    | cons v b =>
      rw [Reason.read_cons] at h
      cases hf : Reason.fromU8 (codeNames k) v with
      | ok r => rw [hf] at h; cases h; exact ⟨[v], rfl⟩
      | error e' => rw [hf] at h; cases h

theorem Blames.here {α} {Q : Bytes → DeErr → Prop} {r : Rd α} (h : Blames Q r) {b : Bytes} {e : DeErr}
    (he : r b = .error (.de e)) : Q b e := by simpa using h.err b e he [] []

theorem map_error {α β} {f : α → β} {r : Rd α} {b : Bytes} {e : Fail} (h : Rd.map f r b = .error e) : r b = .error e := by
  rcases Rd.bind_eq_error.1 h with h | ⟨a, b', h1, h2⟩
  · exact h
  · cases h2

theorem connectFlags_error {v : UInt8} {e : DeErr} (h : ConnectFlags.fromU8 v = .error e) :
    ∃ w, e = .unknownQoS w ∧ 2 < w.toNat := by
  unfold ConnectFlags.fromU8 at h
  split at h
  · rename_i e' hq
    cases h
    exact ⟨_, qos_error hq⟩
  · cases h

theorem subOptions_error {v : UInt8} {e : DeErr} (h : SubOptions.ofByte v = .error e) :
    e = .malformedPacket ∨ ∃ w, e = .unknownQoS w ∧ 2 < w.toNat := by
  unfold SubOptions.ofByte at h
  split at h
  · rename_i e' hq
    cases h
    unfold RetainHandling.fromU8 at hq
    split at hq
    · cases hq
    · split at hq
      · cases hq
      · split at hq
        · cases hq
        · cases hq; exact .inl rfl
  · split at h
    · rename_i e' hq
      cases h
      exact .inr ⟨_, qos_error hq⟩
    · cases h

theorem flags_blames {Q : Bytes → DeErr → Prop} (hq : ∀ b v, 2 < v.toNat → Q b (.unknownQoS v)) (v : UInt8) :
    Blames Q (Rd.lift (ConnectFlags.fromU8 v)) :=
  Blames.lift fun e h b => by
    obtain ⟨w, rfl, hw⟩ := connectFlags_error h
    exact hq b w hw

theorem options_blames {Q : Bytes → DeErr → Prop} (hm : ∀ b, Q b .malformedPacket)
    (hq : ∀ b v, 2 < v.toNat → Q b (.unknownQoS v)) (v : UInt8) : Blames Q (Rd.lift (SubOptions.ofByte v)) :=
  Blames.lift fun e h b => by
    rcases subOptions_error h with rfl | ⟨w, rfl, hw⟩
    · exact hm b
    · exact hq b w hw

theorem qosBits_blames {Q : Bytes → DeErr → Prop} (hq : ∀ b v, 2 < v.toNat → Q b (.unknownQoS v)) (v : UInt8) :
    Blames Q (Rd.lift (QoS.fromU8 v)) :=
  Blames.lift fun e h b => by
    obtain ⟨rfl, hw⟩ := qos_error h
    exact hq b v hw

theorem willRead_blames (q : QoS) (r : Bool) : Blames (BufferBlame .connect) (LastWill.read q r) :=
  willProps_blames.bind fun _ => (readStr_blames (bufferFair _)).bind fun _ =>
    (readBin_blames (bufferFair _)).bind fun _ => Blames.pure _

/-- CONNECT after its protocol version -/
theorem connectRest_blames : Blames (BufferBlame .connect) (do
    let flags ← ConnectFlags.read
    let keepAlive ← getU16
    let props ← Props.syncRead connectSync
    let clientId ← readStr
    let lastWill ←
      if flags.willFlag then do pure (some (← LastWill.read flags.willQos flags.willRetain))
      else pure none
    let username ← if flags.username then do pure (some (← readStr)) else pure none
    let password ← if flags.password then do pure (some (← readStr)) else pure none
    pure ⟨flags.cleanStart, lastWill, username, password, keepAlive, props, clientId⟩ : Rd Connect) := by
  have hq := bufferFair .connect
  have hp : ∀ (flags : ConnectFlags) (k : UInt16) (P : Props) (c : Str) (w : Option LastWill) (u : Option Str),
      Blames (BufferBlame .connect) (if flags.password = true then do
          let x ← readStr
          pure (⟨flags.cleanStart, w, u, some x, k, P, c⟩ : Connect)
        else pure ⟨flags.cleanStart, w, u, none, k, P, c⟩ : Rd Connect) := by
    intro flags k P c w u
    exact Blames.ite (fun _ => (readStr_blames hq).bind fun _ => Blames.pure _) fun _ => Blames.pure _
  have hu : ∀ (flags : ConnectFlags) (k : UInt16) (P : Props) (c : Str) (w : Option LastWill),
      Blames (BufferBlame .connect) (if flags.username = true then do
          let u ← readStr
          if flags.password = true then do
            let x ← readStr
            pure (⟨flags.cleanStart, w, some u, some x, k, P, c⟩ : Connect)
          else pure ⟨flags.cleanStart, w, some u, none, k, P, c⟩
        else if flags.password = true then do
          let x ← readStr
          pure ⟨flags.cleanStart, w, none, some x, k, P, c⟩
        else pure ⟨flags.cleanStart, w, none, none, k, P, c⟩ : Rd Connect) := by
    intro flags k P c w
    exact Blames.ite (fun _ => (readStr_blames hq).bind fun _ => hp ..) fun _ => hp ..
  refine Blames.bind (lack0_blames hq (getU8_blames.bind fun v => flags_blames hq.qos v)) fun flags => ?_
  refine getU16_blames.bind fun k => connectProps_blames.bind fun P => (readStr_blames hq).bind fun c => ?_
  exact Blames.ite (fun _ => (willRead_blames _ _).bind fun _ => hu ..) fun _ => hu ..

theorem connectRead_blames {b : Bytes} {e : DeErr} (h : Connect.read b = .error (.de e)) : BufferBlame .connect b e := by
  rcases Rd.bind_eq_error.1 h with h | ⟨proto, b1, h1, h2⟩
  · exact (readBin_blames (bufferFair _)).here h
  · obtain ⟨bs, rfl, x, y, rfl, hl⟩ := readBin_ok h1
    simp only [Rd.ite_apply] at h2
    split at h2
    · cases h2; exact .inl trivial
    · rename_i hp
      have hp : proto = Connect.protocolName := Classical.not_not.1 hp
      subst hp
      have hl : 4 = 256 * x.toNat + y.toNat := hl
      have hx : x = 0 := UInt8.toNat_inj.1 (by simp; omega)
      have hy : y = 4 := UInt8.toNat_inj.1 (by simp; omega)
      subst hx hy
      rcases Rd.bind_eq_error.1 h2 with h3 | ⟨u, b2, h3, h4⟩
      · cases b1 with
        | nil => cases h3; exact .inl ⟨rfl, rfl⟩
        | cons v b1 =>
          have h3 : (if v = 3 ∨ v = 4 then Rd.de .unsupportedProtocolVersion
            else if v = 5 then pure () else Rd.de .unknownProtocolVersion : Rd Unit) b1 = .error (.de e) := h3
          simp only [Rd.ite_apply] at h3
          split at h3
          · cases h3
            exact .inl ⟨rfl, v, ⟨b1, rfl⟩, ‹_›⟩
          · rename_i h34
            split at h3
            · cases h3
            · cases h3
              exact .inl ⟨rfl, v, ⟨b1, rfl⟩, fun h => h34 (.inl h), fun h => h34 (.inr h), ‹_›⟩
      · cases b1 with
        | nil => cases h3
        | cons v b1 =>
          have h3 : (if v = 3 ∨ v = 4 then Rd.de .unsupportedProtocolVersion
            else if v = 5 then pure () else Rd.de .unknownProtocolVersion : Rd Unit) b1 = .ok (u, b2) := h3
          simp only [Rd.ite_apply] at h3
          split at h3
          · cases h3
          · split at h3
            · cases h3
              have := connectRest_blames.err _ e h4 (0 :: 4 :: (Connect.protocolName ++ [v])) []
              simpa using this
            · cases h3

theorem connAckRead_blames {b : Bytes} {e : DeErr} (h : ConnAck.read b.length b = .error (.de e)) :
    BufferBlame .connAck b e := by
  have hq := bufferFair .connAck
  have hr : Blames (BufferBlame .connAck) (do
      let sp ← ConnAck.readFlags
      let r ← Reason.read Reason.connAck
      let P ← Props.syncRead connAckSync
      pure (⟨sp, r, P⟩ : ConnAck)) :=
    Blames.bind (lack0_blames hq (getU8_blames.bind fun _ => Blames.pure _)) fun _ =>
      (reason_blames (k := .connAck) (by decide)).bind fun _ => connAckProps_blames.bind fun _ => Blames.pure _
  rcases Rd.bind_eq_error.1 h with h | ⟨n, b1, h1, h2⟩
  · cases h
  · cases h1
    simp only [Rd.ite_apply] at h2
    split at h2
    · omega
    · exact hr.here h2

theorem publishRead_blames (flags : UInt8) : Blames (BufferBlame .publish) (Publish.read flags) := by
  have hq := bufferFair .publish
  refine (qosBits_blames hq.qos _).bind fun q => (readStr_blames hq).bind fun t => ?_
  exact Blames.ite (fun _ => (readU16_blames hq).bind fun _ => publishProps_blames.bind fun _ =>
    rest_blames.bind fun _ => Blames.pure _) fun _ => publishProps_blames.bind fun _ => rest_blames.bind fun _ => Blames.pure _

theorem pubAckRead_blames {b : Bytes} {e : DeErr} (h : Ack.readPubAck b.length b = .error (.de e)) :
    BufferBlame .pubAck b e := by
  have hq := bufferFair .pubAck
  unfold Ack.readPubAck at h
  simp only [Rd.ite_apply] at h
  split at h
  · rename_i hl
    rcases Rd.bind_eq_error.1 h with h | ⟨n, b1, h1, h2⟩
    · cases h
    · cases h1; cases h2; exact hq.short _ _ _ hl (Nat.le_refl _)
  · refine Blames.here (Q := BufferBlame .pubAck) ?_ h
    refine (readU16_blames hq).bind fun _ => Blames.ite (fun _ => Blames.pure _) fun _ =>
      (reason_blames (k := .pubAck) (by decide)).bind fun _ => ?_
    exact Blames.ite (fun _ => Blames.pure _) fun _ => pubAckProps_blames.bind fun _ => Blames.pure _

theorem recCompRead_blames {k : PacketType} {sp : Props.SyncSpec} (hk : reasonCodes k ≠ [])
    (hs : Blames (BufferBlame k) (Props.syncRead sp)) {b : Bytes} {e : DeErr}
    (h : Ack.readRecComp (codeNames k) sp b.length b = .error (.de e)) : BufferBlame k b e := by
  have hq := bufferFair k
  unfold Ack.readRecComp at h
  simp only [Rd.ite_apply] at h
  split at h
  · exact ((readU16_blames hq).bind fun _ => Blames.pure _).here h
  · split at h
    · rename_i hl
      rcases Rd.bind_eq_error.1 h with h | ⟨n, b1, h1, h2⟩
      · cases h
      · cases h1; cases h2; exact hq.short _ _ _ hl (Nat.le_refl _)
    · exact ((readU16_blames hq).bind fun _ => (reason_blames hk).bind fun _ => hs.bind fun _ => Blames.pure _).here h

theorem pubRelRead_blames (n : Nat) : Blames (BufferBlame .pubRel) (Ack.readPubRel n) := by
  have hq := bufferFair .pubRel
  exact Blames.ite (fun _ => (readU16_blames hq).bind fun _ => Blames.pure _) fun _ =>
    Blames.ite (fun _ => (readU16_blames hq).bind fun _ =>
      (reason_blames (k := .pubRel) (by decide)).bind fun _ => Blames.pure _) fun _ =>
    (readU16_blames hq).bind fun _ => (reason_blames (k := .pubRel) (by decide)).bind fun _ =>
      pubRelProps_blames.bind fun _ => Blames.pure _

theorem codesGe_blames {Q : Bytes → DeErr → Prop} {codes : List Reason} (h : Blames Q (Reason.read codes)) (n : Nat) :
    ∀ fuel m, Blames Q (CodesAck.readCodesGe codes n fuel m) := by
  intro fuel
  induction fuel with
  | zero => intro m; exact Blames.fail (fun _ h => by cases h)
  | succ fuel ih =>
    intro m
    exact Blames.ite (fun _ => Blames.pure _) fun _ => h.bind fun _ => (ih _).bind fun _ => Blames.pure _

theorem codesEq_blames {Q : Bytes → DeErr → Prop} {codes : List Reason} (h : Blames Q (Reason.read codes)) (n : Nat) :
    ∀ fuel m, Blames Q (CodesAck.readCodesEq codes n fuel m) := by
  intro fuel
  induction fuel with
  | zero => intro m; exact Blames.fail (fun _ h => by cases h)
  | succ fuel ih =>
    intro m
    exact Blames.ite (fun _ => Blames.pure _) fun _ => h.bind fun _ => (ih _).bind fun _ => Blames.pure _

theorem subAckRead_blames (n : Nat) : Blames (BufferBlame .subAck) (CodesAck.readSubAck n) :=
  (readU16_blames (bufferFair _)).bind fun _ => subAckProps_blames.bind fun _ => Blames.bufLen.bind fun _ =>
    (codesGe_blames (reason_blames (k := .subAck) (by decide)) _ _ _).bind fun _ => Blames.pure _

theorem unsubAckRead_blames (n : Nat) : Blames (BufferBlame .unsubAck) (CodesAck.readUnsubAck n) :=
  (readU16_blames (bufferFair _)).bind fun _ => unsubAckProps_blames.bind fun _ => Blames.bufLen.bind fun _ =>
    (codesEq_blames (reason_blames (k := .unsubAck) (by decide)) _ _ _).bind fun _ => Blames.pure _

theorem subTopics_blames {Q : Bytes → DeErr → Prop} (hq : Fair Q) : ∀ fuel, Blames Q (Subscribe.readTopics fuel) := by
  intro fuel
  induction fuel with
  | zero => exact Blames.fail (fun _ h => by cases h)
  | succ fuel ih =>
    exact (readStr_blames hq).bind fun _ =>
      Blames.bind (lack0_blames hq (getU8_blames.bind fun _ => options_blames hq.malformed hq.qos _)) fun _ =>
      Blames.bufLen.bind fun _ => Blames.ite (fun _ => Blames.pure _) fun _ => ih.bind fun _ => Blames.pure _

theorem unsubTopics_blames {Q : Bytes → DeErr → Prop} (hq : Fair Q) : ∀ fuel, Blames Q (Unsubscribe.readTopics fuel) := by
  intro fuel
  induction fuel with
  | zero => exact Blames.fail (fun _ h => by cases h)
  | succ fuel ih =>
    exact (readStr_blames hq).bind fun _ =>
      Blames.bufLen.bind fun _ => Blames.ite (fun _ => Blames.pure _) fun _ => ih.bind fun _ => Blames.pure _

theorem subscribeRead_blames : Blames (BufferBlame .subscribe) Subscribe.read :=
  (readU16_blames (bufferFair _)).bind fun _ => subscribeProps_blames.bind fun _ => Blames.bufLen.bind fun _ =>
    (subTopics_blames (bufferFair _) _).bind fun _ => Blames.pure _

theorem unsubscribeRead_blames : Blames (BufferBlame .unsubscribe) Unsubscribe.read :=
  (readU16_blames (bufferFair _)).bind fun _ => unsubscribeProps_blames.bind fun _ => Blames.bufLen.bind fun _ =>
    (unsubTopics_blames (bufferFair _) _).bind fun _ => Blames.pure _

theorem disconnectRead_blames (n : Nat) : Blames (BufferBlame .disconnect) (Disconnect.read n) :=
  Blames.ite (fun _ => Blames.pure _) fun _ => (reason_blames (k := .disconnect) (by decide)).bind fun _ =>
    disconnectProps_blames.bind fun _ => Blames.pure _

theorem authRead_blames : Blames (BufferBlame .auth) Auth.read :=
  (reason_blames (k := .auth) (by decide)).bind fun _ => authProps_blames.bind fun _ => Blames.pure _

/-- every packet -/
theorem bodyRead_blames {t : PacketType} {flags : UInt8} {b : Bytes} {e : DeErr}
    (h : Packet.bodyRead ⟨t, flags, b.length⟩ b = .error (.de e)) : BufferBlame t b e := by
  cases t
  case connect => exact connectRead_blames (map_error h)
  case connAck => exact connAckRead_blames (map_error h)
  case publish => exact (publishRead_blames _).here (map_error h)
  case pubAck => exact pubAckRead_blames (map_error h)
  case pubRec => exact recCompRead_blames (k := .pubRec) (by decide) pubRecProps_blames (map_error h)
  case pubRel => exact (pubRelRead_blames _).here (map_error h)
  case pubComp => exact recCompRead_blames (k := .pubComp) (by decide) pubCompProps_blames (map_error h)
  case subscribe => exact subscribeRead_blames.here (map_error h)
  case subAck => exact (subAckRead_blames _).here (map_error h)
  case unsubscribe => exact unsubscribeRead_blames.here (map_error h)
  case unsubAck => exact (unsubAckRead_blames _).here (map_error h)
  case pingReq => cases h
  case pingResp => cases h
  case disconnect => exact (disconnectRead_blames _).here (map_error h)
  case auth => exact authRead_blames.here (map_error h)

/-! ## the decoder that works on a stream -/

/-- the error is justified, or one of the known slips -/
def StreamBlame (k : PacketType) (n : Nat) (b : Bytes) (e : DeErr) : Prop := Justified k n b e ∨ StreamSlip k n b e

theorem streamFair (k : PacketType) (n : Nat) : FairStream (StreamBlame k n) where
  malformed _ := .inl trivial
  info _ := .inl trivial
  qos _ _ h := .inl h
  text _ h := .inl h

theorem streamSection {k : PacketType} {n : Nat} {es : List Entry} {s : Spec.Section} (hs : s ∈ sectionsOf k)
    (ht : TableOk s es)
    (hn : ∀ t, Entry.select es t = none → s ∉ carriers t ∨ (k = .subAck ∧ t = .reasonString)) :
    Blames (StreamBlame k n) (Props.asyncRead es) := by
  have hrep : ∀ p, Entry.single p ∈ es → repeatable s p = false := by
    intro p hp
    obtain ⟨h1, h2, -⟩ := ht _ hp
    cases p <;> cases s <;> first | rfl | exact absurd rfl h1 | exact absurd rfl (h2 rfl)
  refine asyncRead_blames (s := s) ⟨streamFair k n, ht, ?_, ?_, ?_⟩
  · intro b items v hf hv
    exact .inl ⟨items, hf, hv⟩
  · intro b items t hf hsel
    rcases hn t hsel with h | ⟨rfl, rfl⟩
    · exact .inr (.inr (.inr (.inl ⟨t, rfl, rfl, s, items, hs, hf, h⟩)))
    · exact .inr (.inr (.inl ⟨rfl, rfl, rfl, items, hf⟩))
  · intro b items p hp hf hd
    have hj : Justified k n b (.duplicateProperty p) := ⟨s, items, hs, hf, hd, hrep p hp⟩
    by_cases h1 : p = .topicAlias
    · subst h1; exact .inr (.inr (.inr (.inr (.inl ⟨rfl, hj⟩))))
    · by_cases h2 : p = .maximumPacketSize
      · subst h2; exact .inr (.inr (.inr (.inr (.inr ⟨rfl, hj⟩))))
      · have : Props.asyncDupLabel p = p := by cases p <;> first | rfl | exact absurd rfl h1 | exact absurd rfl h2
        rw [this]
        exact .inl hj

theorem connectStream_blames (n : Nat) : Blames (StreamBlame .connect n) (Props.asyncRead connectEntries) :=
  streamSection (s := .connect) (by decide) (tableOk_of (by decide)) (fun t => by cases t <;> decide)
theorem willStream_blames (n : Nat) : Blames (StreamBlame .connect n) (Props.asyncRead willEntries) :=
  streamSection (s := .will) (by decide) (tableOk_of (by decide)) (fun t => by cases t <;> decide)
theorem connAckStream_blames (n : Nat) : Blames (StreamBlame .connAck n) (Props.asyncRead connAckEntries) :=
  streamSection (s := .connAck) (by decide) (tableOk_of (by decide)) (fun t => by cases t <;> decide)
theorem publishStream_blames (n : Nat) : Blames (StreamBlame .publish n) (Props.asyncRead publishEntries) :=
  streamSection (s := .publish) (by decide) (tableOk_of (by decide)) (fun t => by cases t <;> decide)
theorem pubAckStream_blames (n : Nat) : Blames (StreamBlame .pubAck n) (Props.asyncRead ackEntries) :=
  streamSection (s := .pubAck) (by decide) (tableOk_of (by decide)) (fun t => by cases t <;> decide)
theorem pubRecStream_blames (n : Nat) : Blames (StreamBlame .pubRec n) (Props.asyncRead ackEntries) :=
  streamSection (s := .pubRec) (by decide) (tableOk_of (by decide)) (fun t => by cases t <;> decide)
theorem pubRelStream_blames (n : Nat) : Blames (StreamBlame .pubRel n) (Props.asyncRead ackEntries) :=
  streamSection (s := .pubRel) (by decide) (tableOk_of (by decide)) (fun t => by cases t <;> decide)
theorem pubCompStream_blames (n : Nat) : Blames (StreamBlame .pubComp n) (Props.asyncRead ackEntries) :=
  streamSection (s := .pubComp) (by decide) (tableOk_of (by decide)) (fun t => by cases t <;> decide)
theorem subscribeStream_blames (n : Nat) : Blames (StreamBlame .subscribe n) (Props.asyncRead subscribeEntries) :=
  streamSection (s := .subscribe) (by decide) (tableOk_of (by decide)) (fun t => by cases t <;> decide)
theorem subAckStream_blames (n : Nat) : Blames (StreamBlame .subAck n) (Props.asyncRead subscribeEntries) :=
  streamSection (s := .subAck) (by decide) (tableOk_of (by decide)) (fun t => by cases t <;> decide)
theorem unsubscribeStream_blames (n : Nat) : Blames (StreamBlame .unsubscribe n) (Props.asyncRead unsubscribeEntries) :=
  streamSection (s := .unsubscribe) (by decide) (tableOk_of (by decide)) (fun t => by cases t <;> decide)
theorem unsubAckStream_blames (n : Nat) : Blames (StreamBlame .unsubAck n) (Props.asyncRead ackEntries) :=
  streamSection (s := .unsubAck) (by decide) (tableOk_of (by decide)) (fun t => by cases t <;> decide)
theorem disconnectStream_blames (n : Nat) : Blames (StreamBlame .disconnect n) (Props.asyncRead disconnectEntries) :=
  streamSection (s := .disconnect) (by decide) (tableOk_of (by decide)) (fun t => by cases t <;> decide)
theorem authStream_blames (n : Nat) : Blames (StreamBlame .auth n) (Props.asyncRead authEntries) :=
  streamSection (s := .auth) (by decide) (tableOk_of (by decide)) (fun t => by cases t <;> decide)

theorem reasonStream_blames {k : PacketType} {n : Nat} (hk : reasonCodes k ≠ []) :
    Blames (StreamBlame k n) (Reason.asyncRead (codeNames k)) := by
  constructor
  · intro b e h pre post
    cases b with
    | nil => cases h
    | cons v b =>
      rw [Reason.asyncRead_cons] at h
      cases hf : Reason.fromU8 (codeNames k) v with
      | ok r => rw [hf] at h; cases h
      | error e' =>
        rw [hf] at h
        cases h
        obtain ⟨rfl, hv⟩ := reason_error hf
        exact .inr (.inl ⟨by simp, hv, hk⟩)
  · intro b a rest h
    cases b with
    | nil => cases h
    | cons v b =>
      rw [Reason.asyncRead_cons] at h
      cases hf : Reason.fromU8 (codeNames k) v with
      | ok r => rw [hf] at h; cases h; exact ⟨[v], rfl⟩
      | error e' => rw [hf] at h; cases h

theorem willAsync_blames (n : Nat) (q : QoS) (r : Bool) : Blames (StreamBlame .connect n) (LastWill.asyncRead q r) :=
  (willStream_blames n).bind fun _ => (asyncReadStr_blames (streamFair _ _)).bind fun _ =>
    asyncReadBin_blames.bind fun _ => Blames.pure _

theorem connectAsync_blames (n : Nat) {b : Bytes} {e : DeErr} (h : Connect.asyncRead b = .error (.de e)) :
    StreamBlame .connect n b e := by
  have hq := streamFair .connect n
  rcases Rd.bind_eq_error.1 h with h | ⟨proto, b1, h1, h2⟩
  · exact (aExact_blames 6).here h
  · obtain ⟨rfl, hl⟩ := aExact_ok h1
    simp only [Rd.ite_apply] at h2
    split at h2
    · cases h2; exact .inl trivial
    · rename_i hp
      have hp : proto = 0 :: 4 :: Connect.protocolName := Classical.not_not.1 hp
      subst hp
      rcases Rd.bind_eq_error.1 h2 with h3 | ⟨u, b2, h3, h4⟩
      · cases b1 with
        | nil => cases h3
        | cons v b1 =>
          have h3 : (if v = 5 then pure ((), 1) else if v = 3 ∨ v = 4 then Rd.de .unsupportedProtocolVersion
            else Rd.de .unknownProtocolVersion : Rd (Unit × Nat)) b1 = .error (.de e) := h3
          simp only [Rd.ite_apply] at h3
          split at h3
          · cases h3
          · split at h3
            · cases h3
              exact .inl ⟨rfl, v, ⟨b1, rfl⟩, ‹_›⟩
            · rename_i h34
              cases h3
              exact .inl ⟨rfl, v, ⟨b1, rfl⟩, fun h => h34 (.inl h), fun h => h34 (.inr h), ‹_›⟩
      · cases b1 with
        | nil => cases h3
        | cons v b1 =>
          have h3 : (if v = 5 then pure ((), 1) else if v = 3 ∨ v = 4 then Rd.de .unsupportedProtocolVersion
            else Rd.de .unknownProtocolVersion : Rd (Unit × Nat)) b1 = .ok (u, b2) := h3
          simp only [Rd.ite_apply] at h3
          split at h3
          · cases h3
            have := Blames.err (Q := StreamBlame .connect n) ?_ _ _ h4
              (0 :: 4 :: (Connect.protocolName ++ [v])) []
            · simpa using this
            · refine Blames.bind (Blames.bind aU8_blames fun w => (flags_blames hq.qos w).bind fun _ => Blames.pure _) fun _ => ?_
              refine aU16_blames.bind fun _ => (connectStream_blames n).bind fun _ => (asyncReadStr_blames hq).bind fun _ => ?_
              repeat first
                | exact Blames.pure _
                | refine Blames.ite (fun _ => ?_) fun _ => ?_
                | refine (asyncReadStr_blames hq).bind fun _ => ?_
                | refine (willAsync_blames n _ _).bind fun _ => ?_
          · split at h3 <;> cases h3

theorem connAckAsync_blames (n : Nat) : Blames (StreamBlame .connAck n) ConnAck.asyncRead :=
  Blames.bind (aU8_blames.bind fun _ => Blames.pure _) fun _ =>
    (reasonStream_blames (k := .connAck) (by decide)).bind fun _ => (connAckStream_blames n).bind fun _ => Blames.pure _

theorem publishAsync_blames (n : Nat) (flags : UInt8) : Blames (StreamBlame .publish n) (Publish.asyncRead flags n) := by
  have hq := streamFair .publish n
  have hp : ∀ (q : QoS) (t : Str) (m k : Nat) (i : Option UInt16), Blames (StreamBlame .publish n) (do
      let (props, m') ← Props.asyncRead publishEntries
      let total := m + k + m'
      if total > n then Rd.de .malformedPacket
      else
        let payload ← aExact (n - total)
        pure ((⟨flags &&& 0b1000 != 0, q, flags &&& 0b1 != 0, t, i, props, payload⟩ : Publish), total + (n - total))) := by
    intro q t m k i
    exact (publishStream_blames n).bind fun _ => Blames.ite (fun _ => Blames.de hq.malformed) fun _ =>
      (aExact_blames _).bind fun _ => Blames.pure _
  refine (qosBits_blames hq.qos _).bind fun q => (asyncReadStr_blames hq).bind fun t => ?_
  exact Blames.ite (fun _ => hp ..) fun _ => aU16_blames.bind fun _ => hp ..

theorem pubAckAsync_blames (n : Nat) : Blames (StreamBlame .pubAck n) (Ack.asyncReadPubAck n) := by
  refine Blames.ite (fun hl => Blames.de fun _ => .inl ⟨hl, Nat.le_refl _⟩) fun _ => aU16_blames.bind fun _ =>
    Blames.ite (fun _ => Blames.pure _) fun _ => (reasonStream_blames (k := .pubAck) (by decide)).bind fun _ => ?_
  exact Blames.ite (fun _ => Blames.pure _) fun _ => (pubAckStream_blames n).bind fun _ => Blames.pure _

theorem pubRecAsync_blames (n : Nat) : Blames (StreamBlame .pubRec n) (Ack.asyncReadPubRec n) :=
  aU16_blames.bind fun _ => Blames.ite (fun _ => Blames.pure _) fun _ =>
    (reasonStream_blames (k := .pubRec) (by decide)).bind fun _ => (pubRecStream_blames n).bind fun _ => Blames.pure _

theorem pubRelAsync_blames (n : Nat) : Blames (StreamBlame .pubRel n) (Ack.asyncReadPubRel n) :=
  aU16_blames.bind fun _ => Blames.ite (fun _ => Blames.pure _) fun _ =>
    (reasonStream_blames (k := .pubRel) (by decide)).bind fun _ => Blames.ite (fun _ => Blames.pure _) fun _ =>
    (pubRelStream_blames n).bind fun _ => Blames.pure _

theorem pubCompAsync_blames (n : Nat) : Blames (StreamBlame .pubComp n) (Ack.asyncReadPubComp n) :=
  aU16_blames.bind fun _ => Blames.ite (fun _ => Blames.pure _) fun _ =>
    Blames.ite (fun _ => Blames.de fun _ => .inl ⟨by decide, Nat.zero_le _⟩) fun _ =>
    (reasonStream_blames (k := .pubComp) (by decide)).bind fun _ => (pubCompStream_blames n).bind fun _ =>
    Blames.ite (fun h => Blames.de fun _ => .inl ⟨rfl, h⟩) fun _ => Blames.pure _

theorem codesAsyncGe_blames {Q : Bytes → DeErr → Prop} {codes : List Reason} (h : Blames Q (Reason.asyncRead codes)) (n : Nat) :
    ∀ fuel m, Blames Q (CodesAck.asyncCodesGe codes n fuel m) := by
  intro fuel
  induction fuel with
  | zero => intro m; exact Blames.fail (fun _ h => by cases h)
  | succ fuel ih =>
    intro m
    exact Blames.ite (fun _ => Blames.pure _) fun _ => h.bind fun _ => (ih _).bind fun _ => Blames.pure _

theorem codesAsyncEq_blames {Q : Bytes → DeErr → Prop} {codes : List Reason} (h : Blames Q (Reason.asyncRead codes)) (n : Nat) :
    ∀ fuel m, Blames Q (CodesAck.asyncCodesEq codes n fuel m) := by
  intro fuel
  induction fuel with
  | zero => intro m; exact Blames.fail (fun _ h => by cases h)
  | succ fuel ih =>
    intro m
    exact Blames.ite (fun _ => Blames.pure _) fun _ => h.bind fun _ => (ih _).bind fun _ => Blames.pure _

theorem subAckAsync_blames (n : Nat) : Blames (StreamBlame .subAck n) (CodesAck.asyncReadSubAck n) :=
  aU16_blames.bind fun _ => (subAckStream_blames n).bind fun _ => Blames.bufLen.bind fun _ =>
    (codesAsyncEq_blames (reasonStream_blames (k := .subAck) (by decide)) _ _ _).bind fun _ => Blames.pure _

theorem unsubAckAsync_blames (n : Nat) : Blames (StreamBlame .unsubAck n) (CodesAck.asyncReadUnsubAck n) :=
  aU16_blames.bind fun _ => (unsubAckStream_blames n).bind fun _ => Blames.bufLen.bind fun _ =>
    (codesAsyncGe_blames (reasonStream_blames (k := .unsubAck) (by decide)) _ _ _).bind fun _ => Blames.pure _

theorem subTopicsAsync_blames {Q : Bytes → DeErr → Prop} (hq : FairStream Q) (n : Nat) :
    ∀ fuel m, Blames Q (Subscribe.asyncTopics n fuel m) := by
  intro fuel
  induction fuel with
  | zero => intro m; exact Blames.fail (fun _ h => by cases h)
  | succ fuel ih =>
    intro m
    exact (asyncReadStr_blames hq).bind fun _ =>
      Blames.bind (aU8_blames.bind fun _ => (options_blames hq.malformed hq.qos _).bind fun _ => Blames.pure _) fun _ =>
      Blames.ite (fun _ => Blames.pure _) fun _ => (ih _).bind fun _ => Blames.pure _

theorem unsubTopicsAsync_blames {Q : Bytes → DeErr → Prop} (hq : FairStream Q) (n : Nat) :
    ∀ fuel m, Blames Q (Unsubscribe.asyncTopics n fuel m) := by
  intro fuel
  induction fuel with
  | zero => intro m; exact Blames.fail (fun _ h => by cases h)
  | succ fuel ih =>
    intro m
    exact (asyncReadStr_blames hq).bind fun _ =>
      Blames.ite (fun _ => Blames.pure _) fun _ => (ih _).bind fun _ => Blames.pure _

theorem subscribeAsync_blames (n : Nat) : Blames (StreamBlame .subscribe n) (Subscribe.asyncRead n) :=
  aU16_blames.bind fun _ => (subscribeStream_blames n).bind fun _ => Blames.bufLen.bind fun _ =>
    (subTopicsAsync_blames (streamFair _ _) _ _ _).bind fun _ => Blames.pure _

theorem unsubscribeAsync_blames (n : Nat) : Blames (StreamBlame .unsubscribe n) (Unsubscribe.asyncRead n) :=
  aU16_blames.bind fun _ => (unsubscribeStream_blames n).bind fun _ => Blames.bufLen.bind fun _ =>
    (unsubTopicsAsync_blames (streamFair _ _) _ _ _).bind fun _ => Blames.pure _

theorem disconnectAsync_blames (n : Nat) : Blames (StreamBlame .disconnect n) (Disconnect.asyncRead n) :=
  Blames.ite (fun _ => Blames.pure _) fun _ => (reasonStream_blames (k := .disconnect) (by decide)).bind fun _ =>
    (disconnectStream_blames n).bind fun _ => Blames.pure _

theorem authAsync_blames (n : Nat) : Blames (StreamBlame .auth n) Auth.asyncRead :=
  (reasonStream_blames (k := .auth) (by decide)).bind fun _ => (authStream_blames n).bind fun _ => Blames.pure _

/-- every packet -/
theorem asyncReadPacket_blames {t : PacketType} {flags : UInt8} {n : Nat} {b : Bytes} {e : DeErr}
    (h : Packet.asyncReadPacket ⟨t, flags, n⟩ b = .error (.de e)) : StreamBlame t n b e := by
  cases t
  case connect => exact connectAsync_blames n (map_error h)
  case connAck => exact (connAckAsync_blames n).here (map_error h)
  case publish => exact (publishAsync_blames n _).here (map_error h)
  case pubAck => exact (pubAckAsync_blames n).here (map_error h)
  case pubRec => exact (pubRecAsync_blames n).here (map_error h)
  case pubRel => exact (pubRelAsync_blames n).here (map_error h)
  case pubComp => exact (pubCompAsync_blames n).here (map_error h)
  case subscribe => exact (subscribeAsync_blames n).here (map_error h)
  case subAck => exact (subAckAsync_blames n).here (map_error h)
  case unsubscribe => exact (unsubscribeAsync_blames n).here (map_error h)
  case unsubAck => exact (unsubAckAsync_blames n).here (map_error h)
  case pingReq => cases h
  case pingResp => cases h
  case disconnect => exact (disconnectAsync_blames n).here (map_error h)
  case auth => exact (authAsync_blames n).here (map_error h)

/-! ## the fixed header -/

theorem firstByte_error {v : UInt8} {e : DeErr} (h : PacketType.fromFirstByte v = .error e) :
    e = .unknownFixedHeader v ∧ ∀ t, ¬ FirstByteAllowed t v := by
  have hc := C06_first_byte_accepted v
  have hn : ∀ t, ¬ FirstByteAllowed t v := by
    intro t ht
    obtain ⟨f, hf⟩ := (hc.1 t).2 ht
    rw [hf] at h
    cases h
  rw [hc.2.1 hn] at h
  cases h
  exact ⟨rfl, hn⟩

theorem firstByte_ok {v : UInt8} {t : PacketType} {f : UInt8} (h : PacketType.fromFirstByte v = .ok (t, f)) :
    FirstByteAllowed t v := (C06_first_byte_accepted v).1 t |>.1 ⟨f, h⟩

/-- a justified complaint about a property names one whose identifier is in the packet -/
theorem justified_mem {k : PacketType} {n : Nat} {body : Bytes} {p : PropertyType}
    (h : Justified k n body (.duplicateProperty p)) : 2 ≤ body.count (propertyId p) := by
  obtain ⟨s, items, -, ⟨before, len, good, more, rfl, -, -, hg⟩, ⟨i, hi, rfl⟩, -⟩ := h
  have hm : propertyId i.type ∈ good := by
    induction hg with
    | nil => cases hi
    | @cons j js bs cs hb hs ih =>
      rcases List.mem_cons.1 hi with rfl | hi
      · obtain ⟨vs, rfl⟩ := WireItem.Bytes.head hb
        simp
      · exact List.mem_append.2 (.inr (ih hi))
  have := List.count_pos_iff.2 hm
  simp only [List.count_append, List.count_cons_self]
  omega

end Mqrstt
