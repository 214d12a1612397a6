import Verif.Proof.PingPong
import Verif.Props.Client
/-!
# The handlers that come with the crate (C80)
-/

namespace Mqrstt.Props
open Mqrstt Mqrstt.Spec _root_.Spec

/-- the answer to a message -/
def pong (m : Publish) : Request := .publish m.topic m.qos m.retain [0x70, 0x6F, 0x6E, 0x67] .empty

/-- a message as a server that keeps to the rules sends it to this client: an identifier exactly above QoS 0, a topic of at most
65,535 bytes, not larger than the client allows -/
structure Acceptable (s : Sys) (m : Publish) : Prop where
  identifier : m.pkid = none ↔ m.qos = .atMostOnce
  topic : m.topic.bytes.length ≤ 65535
  size : m.wireLen ≤ s.maxPacketSize

theorem answer_fits {s : Sys} {m : Publish} (h : Acceptable s m) (hp : SaysPing m.payload) {id : Option UInt16}
    (hid : id.isSome → m.qos ≠ .atMostOnce) :
    (Packet.publish ⟨false, m.qos, m.retain, m.topic, id, .empty, [0x70, 0x6F, 0x6E, 0x67]⟩).validate s.maxPacketSize = .ok () := by
  have h4 : 4 ≤ m.payload.length := by
    obtain ⟨pre, p, i, n, g, post, e, -⟩ := hp
    rw [e]
    simp
    omega
  have hsz := h.size
  have hid' : (if id.isSome then 2 else 0) ≤ if m.pkid.isSome then 2 else 0 := by
    cases e : m.pkid with
    | none =>
      have := h.identifier.1 e
      cases id with
      | none => simp
      | some i => exact absurd this (hid rfl)
    | some j => split <;> simp
  have he : (Props.empty).wireLen publishEntries = 0 := by decide
  have hl : VarInt.len 0 ≤ VarInt.len (m.props.wireLen publishEntries) := by
    have : VarInt.len 0 = 1 := by decide
    rw [this, VarInt.len.eq_def]
    repeat' split
    all_goals omega
  simp only [Packet.validate, Publish.validate]
  rw [if_neg, if_neg]
  · have := h.topic
    simp only [Str.length, maximumTopicSize]
    omega
  · simp only [Publish.wireLen, he] at hsz ⊢
    simp only [List.length_cons, List.length_nil]
    omega

/-- **C80 (partial).** What `PingPong` does with a packet, in any state of the client: for a message in UTF-8 that says "ping",
in any mix of capital and small letters, one message "pong" with the same topic, QoS and retain flag enters the queue, and the
message is counted unless it is retained; everything else is ignored. Missing: a character in the way of the cut after ten
bytes, an answer that the client refuses, the overflow of the counter; there the handler panics, see
`C80_ping_pong_violated`. -/
theorem C80_ping_pong_partial (checks : Bool) (h : PingPong) (s : Sys) :
    (∀ p, (∀ m, p = .publish m → ¬ SplitsCharacter m.payload ∧ ¬ SaysPing m.payload) → h.handle checks s p = some (s, some h)) ∧
    (∀ m, validUtf8 m.payload = false → h.handle checks s (.publish m) = some (s, some h)) ∧
    (∀ m s' r, validUtf8 m.payload = true → ¬ SplitsCharacter m.payload → SaysPing m.payload → s.alive = true →
      Acceptable s m → (checks = true → h.number.toNat < 65535) → h.handle checks s (.publish m) = some (s', r) →
      ∃ id, (m.qos = .atMostOnce ↔ id = none) ∧ s'.pending = s.pending ∧
        s'.queue = s.queue ++ [.publish ⟨false, m.qos, m.retain, m.topic, id, .empty, [0x70, 0x6F, 0x6E, 0x67]⟩] ∧
        r = some (if m.retain then h else ⟨h.number + 1⟩)) := by
  have hb : ∀ m : Publish, ¬ SplitsCharacter m.payload → isBoundary m.payload (min m.payload.length 10) = true := by
    intro m hm
    cases e : isBoundary m.payload (min m.payload.length 10) with
    | true => rfl
    | false => exact absurd ((isBoundary_iff _).1 e) hm
  refine ⟨fun p hp => ?_, fun m hv => ?_, fun m s' r hv hm hping ha hfit hn e => ?_⟩
  · cases p with
    | publish m =>
      obtain ⟨h1, h2⟩ := hp m rfl
      have h3 : containsPing (lowercase m.payload) = false := by
        cases e : containsPing (lowercase m.payload) with
        | false => rfl
        | true => exact absurd ((containsPing_lowercase _).1 e) h2
      simp [PingPong.handle, PingPong.begin, hb m h1, h3]
    | _ => rfl
  · simp [PingPong.handle, PingPong.begin, hv]
  · have h3 := (containsPing_lowercase _).2 hping
    have fin : h.finish checks m.retain true = some (if m.retain then h else ⟨h.number + 1⟩) := by
      unfold PingPong.finish
      cases hr : m.retain with
      | true => rfl
      | false =>
        simp only [if_true, Bool.false_eq_true, if_false]
        rw [if_neg]
        intro hc
        simp only [Bool.and_eq_true, beq_iff_eq] at hc
        have := hn hc.1
        rw [hc.2] at this
        exact absurd this (by decide)
    simp only [PingPong.handle, PingPong.begin, hv, hb m hm, h3, if_true, Sys.step] at e
    obtain ⟨t, u, hc, ht⟩ : ∃ t u, s.call (pong m) = some (t, u) ∧ t.alive = true ∧ t.queue = s.queue ∧
        ∃ id, (m.qos = .atMostOnce ↔ id = none) ∧ t.pending = s.pending ++
          [.publish ⟨false, m.qos, m.retain, m.topic, id, .empty, [0x70, 0x6F, 0x6E, 0x67]⟩] ∧ ∃ q i p, u = .called q i p := by
      have hw : ∀ (t : Sys) id, t.alive = true → t.maxPacketSize = s.maxPacketSize →
          (id.isSome → m.qos ≠ .atMostOnce) → t.callWith (pong m) id =
          some ({ t with pending := t.pending ++ [.publish ⟨false, m.qos, m.retain, m.topic, id, .empty, [0x70, 0x6F, 0x6E, 0x67]⟩] },
            .called (pong m) id (.publish ⟨false, m.qos, m.retain, m.topic, id, .empty, [0x70, 0x6F, 0x6E, 0x67]⟩)) := by
        intro t id ha hmx hid
        have := answer_fits hfit hping hid
        rw [← hmx] at this
        simp only [Sys.callWith, pong, Request.packet]
        rw [this]
        simp [ha]
      cases hcl : s.call (pong m) with
      | none =>
        rw [show Request.publish m.topic m.qos m.retain [0x70, 0x6F, 0x6E, 0x67] .empty = pong m from rfl, hcl] at e
        cases e
      | some tu =>
        refine ⟨tu.1, tu.2, rfl, ?_⟩
        simp only [Sys.call] at hcl
        split at hcl
        · cases hcl
        · split at hcl
          · rename_i htk
            split at hcl
            · rename_i i pool _
              have hne : m.qos ≠ .atMostOnce := fun hq => by
                rw [pong, hq] at htk
                cases htk
              rw [hw (s.withPool pool) _ ha rfl (fun _ => hne), Option.some.injEq] at hcl
              subst hcl
              refine ⟨ha, rfl, _, ⟨fun hq => absurd hq hne, fun h => by cases h⟩, rfl, _, _, _, rfl⟩
            · first
              | cases hcl
              | (rw [if_pos ha] at hcl; cases hcl)
          · rename_i htk
            rw [hw s _ ha rfl (fun h => by cases h), Option.some.injEq] at hcl
            subst hcl
            refine ⟨ha, rfl, _, ⟨fun _ => rfl, fun _ => ?_⟩, rfl, _, _, _, rfl⟩
            rw [pong] at htk
            cases hq : m.qos <;> rw [hq] at htk <;> first | rfl | exact absurd rfl htk
    obtain ⟨hal, hqu, id, hid, hpe, q, i, p, rfl⟩ := ht
    rw [show Request.publish m.topic m.qos m.retain [0x70, 0x6F, 0x6E, 0x67] .empty = pong m from rfl, hc] at e
    have hl : t.pending[t.pending.length - 1]? =
        some (.publish ⟨false, m.qos, m.retain, m.topic, id, .empty, [0x70, 0x6F, 0x6E, 0x67]⟩) := by
      rw [hpe]
      simp
    simp only [hl, hal, if_true] at e
    split at e
    · rename_i hs
      split at hs
      · simp only [Option.some.injEq, Prod.mk.injEq, Event.submitted.injEq] at hs
        obtain ⟨rfl, -⟩ := hs
        simp only [Option.some.injEq, Prod.mk.injEq] at e
        obtain ⟨rfl, rfl⟩ := e
        refine ⟨id, hid, ?_, ?_, fin⟩
        · simp only [hpe, List.length_append, List.length_singleton, Nat.add_sub_cancel]
          rw [List.eraseIdx_append_of_length_le (Nat.le_refl _)]
          simp
        · simp only [hqu]
      · cases hs
    · rename_i hs
      split at hs
      · simp only [Option.some.injEq, Prod.mk.injEq] at hs
        rename_i hne _
        exact absurd hs.2.symm (hne _)
      · cases hs
    · cases e

/-- a message to `t` of QoS 1 -/
def note (payload : Bytes) : Publish := ⟨false, .atLeastOnce, false, ⟨[116], by decide⟩, some 9, .empty, payload⟩

/-- "sPiNg": answered, counted -/
example : let s := Sys.init 4 4 1000 true
    Acceptable s (note [115, 80, 105, 78, 103]) ∧ SaysPing (note [115, 80, 105, 78, 103]).payload ∧
    ¬ SplitsCharacter (note [115, 80, 105, 78, 103]).payload ∧
    ∃ s', (⟨0⟩ : PingPong).handle true s (.publish (note [115, 80, 105, 78, 103])) = some (s', some ⟨1⟩) ∧
      s'.queue = [.publish ⟨false, .atLeastOnce, false, ⟨[116], by decide⟩, some 1, .empty, [0x70, 0x6F, 0x6E, 0x67]⟩] :=
  ⟨⟨by decide, by decide, by decide⟩, ⟨[115], 80, 105, 78, 103, [], rfl, by decide, by decide, by decide, by decide⟩,
    (by rintro ⟨x, h, -⟩; cases h), _, rfl, rfl⟩

/-- **C80 is violated.** (1) Every message in UTF-8 whose eleventh byte is inside a character makes `PingPong` panic, whatever
it says, for instance nine times `a` and then `é`, and so ends `run`. (2) So does, where overflow is checked, the message to be
counted after 65,535 others. (3) So does a "ping" too large for the client. -/
theorem C80_ping_pong_violated :
    (∀ checks (h : PingPong) s m, validUtf8 m.payload = true → SplitsCharacter m.payload →
      h.handle checks s (.publish m) = some (s, none)) ∧
    (validUtf8 [97, 97, 97, 97, 97, 97, 97, 97, 97, 0xC3, 0xA9] = true ∧
      SplitsCharacter [97, 97, 97, 97, 97, 97, 97, 97, 97, 0xC3, 0xA9]) ∧
    (∃ s', (⟨65535⟩ : PingPong).handle true (Sys.init 4 4 1000 true) (.publish (note [112, 105, 110, 103])) = some (s', none)) ∧
    (∃ s', (⟨0⟩ : PingPong).handle true (Sys.init 4 4 9 true) (.publish (note [112, 105, 110, 103])) = some (s', none)) := by
  refine ⟨fun checks h s m hv hm => ?_, ⟨by decide, 0xA9, rfl, by decide, by decide⟩, ⟨_, rfl⟩, ⟨_, rfl⟩⟩
  simp [PingPong.handle, PingPong.begin, hv, (isBoundary_iff _).2 hm]

/-- **C80.** After any packets `PingResp` has counted the PINGRESPs among them, as long as there are fewer than 2³². -/
theorem C80_ping_resp (checks : Bool) (ps : List Packet) (few : (ps.filter fun p => p.type == .pingResp).length < 2 ^ 32) :
    ∃ h, ps.foldlM (fun h p => PingRespHandler.handle checks h p) (⟨0⟩ : PingRespHandler) = some h ∧
      h.pingRespReceived.toNat = (ps.filter fun p => p.type == .pingResp).length := by
  suffices gen : ∀ (ps : List Packet) (h : PingRespHandler),
      h.pingRespReceived.toNat + (ps.filter fun p => p.type == .pingResp).length < 2 ^ 32 →
      ∃ h', ps.foldlM (fun h p => PingRespHandler.handle checks h p) h = some h' ∧
        h'.pingRespReceived.toNat = h.pingRespReceived.toNat + (ps.filter fun p => p.type == .pingResp).length by
    have := gen ps ⟨0⟩ (by simpa using few)
    simpa using this
  intro ps
  induction ps with
  | nil => intro h _; exact ⟨h, rfl, rfl⟩
  | cons p ps ih =>
    intro h hl
    by_cases hp : p = .pingResp
    · subst hp
      have e : ((Packet.pingResp :: ps).filter fun p => p.type == .pingResp).length =
          (ps.filter fun p => p.type == .pingResp).length + 1 := by
        rw [List.filter_cons_of_pos rfl]
        rfl
      rw [e] at hl ⊢
      have hn : (h.pingRespReceived + 1).toNat = h.pingRespReceived.toNat + 1 := by
        rw [UInt32.toNat_add]
        simp
        omega
      have hs : PingRespHandler.handle checks h .pingResp = some ⟨h.pingRespReceived + 1⟩ := by
        simp only [PingRespHandler.handle]
        rw [if_neg]
        intro hc
        simp only [Bool.and_eq_true, beq_iff_eq] at hc
        have := congrArg UInt32.toNat hc.2
        simp at this
        omega
      obtain ⟨h', e1, e2⟩ := ih ⟨h.pingRespReceived + 1⟩ (by simp only [hn]; omega)
      refine ⟨h', ?_, by rw [e2, hn]; omega⟩
      rw [List.foldlM_cons, hs]
      exact e1
    · have e : ((p :: ps).filter fun p => p.type == .pingResp) = ps.filter fun p => p.type == .pingResp := by
        rw [List.filter_cons_of_neg]
        cases p <;> first | exact absurd rfl hp | (intro h; cases h)
      rw [e] at hl ⊢
      have hs : PingRespHandler.handle checks h p = some h := by
        cases p <;> first | exact absurd rfl hp | rfl
      obtain ⟨h', e1, e2⟩ := ih h hl
      refine ⟨h', ?_, e2⟩
      rw [List.foldlM_cons, hs]
      exact e1

example : [Packet.pingResp, .pingReq, .pingResp].foldlM (fun h p => PingRespHandler.handle true h p) (⟨0⟩ : PingRespHandler) = some ⟨2⟩ := rfl

end Mqrstt.Props
