import Verif.Proof.Limits
import Verif.Props.Origin
import Verif.Props.Client
/-!
# What the server announces that it will take (C71 to C74)
-/

namespace Mqrstt.Props
open Mqrstt Mqrstt.Spec _root_.Spec

/-! ## C71 -/

theorem written_ids_new {o : Options} {tr : List Obs} (h : IsTraceWith o tr) {p : Publish} {a b : Nat}
    (hw : .wrote (.publish p) a b ∈ tr) (hd : p.dup = false) {i : UInt16} (hi : p.pkid = some i) :
    i ∈ (Pool.new o.sendMaximum).queue := by
  obtain ⟨pre, post, e⟩ := List.append_of_mem hw
  have horig := C69_origin _ tr h pre post _ a b e
  cases horig with
  | asked ha =>
    obtain ⟨q, id, hm⟩ := ha
    obtain ⟨fl, t, w, hv⟩ := h.vrun
    obtain ⟨sops, s', hs⟩ := hv.called (by rw [e]; exact List.mem_append_left _ hm)
    obtain ⟨h1, -⟩ := C49_call_content _ _ _ _ _ hs
    have : id = some i := by
      cases h1 with
      | qos0 => simp_all
      | qos => simp_all
    subst this
    exact (Pool.mem_new _ _).mpr ((C21_ids_valid _ sops q i s').1 _ hs)
  | copy => simp at hd

theorem written_ids {o : Options} {tr : List Obs} (h : IsTraceWith o tr) {p : Publish} {a b : Nat}
    (hw : .wrote (.publish p) a b ∈ tr) {i : UInt16} (hi : p.pkid = some i) : i ∈ (Pool.new o.sendMaximum).queue := by
  cases hd : p.dup with
  | false => exact written_ids_new h hw hd hi
  | true =>
    obtain ⟨pre, post, e⟩ := List.append_of_mem hw
    have inTr : ∀ {x : Obs}, x ∈ pre → x ∈ tr := fun hx => by rw [e]; exact List.mem_append_left _ hx
    have horig := C69_origin _ tr h pre post _ a b e
    cases horig with
    | asked ha =>
      obtain ⟨q, id, hm⟩ := ha
      obtain ⟨fl, t, w, hv⟩ := h.vrun
      obtain ⟨sops, s', hs⟩ := hv.called (by rw [e]; exact List.mem_append_left _ hm)
      obtain ⟨h1, -⟩ := C49_call_content _ _ _ _ _ hs
      cases h1 <;> simp_all
    | copy hm hq hd' => exact written_ids_new h (inTr hm) hd' hi

theorem quota_max {tr : List Obs} {n : Nat} (h0 : n ≤ 65535) (h : ∀ c, .read (.connAck c) ∈ tr → n ≤ receiveMaximumOf c) :
    n ≤ (quota tr).max := by
  have key : ∀ (tr : List Obs) (q : Quota), n ≤ q.max → (∀ c, .read (.connAck c) ∈ tr → n ≤ receiveMaximumOf c) →
      n ≤ (tr.foldl Quota.next q).max := by
    intro tr
    induction tr with
    | nil => intro q h _; exact h
    | cons x tr ih =>
      intro q hq hc
      refine ih _ ?_ (fun c hm => hc c (List.mem_cons_of_mem _ hm))
      cases x with
      | wrote p a b =>
        cases p with
        | publish p => simp only [Quota.next]; split <;> exact hq
        | _ => exact hq
      | read p =>
        cases p with
        | connAck c => exact hc c List.mem_cons_self
        | pubRec a => simp only [Quota.next]; split <;> exact hq
        | _ => exact hq
      | _ => exact hq
  exact key tr _ h0 h

/-- **C71.** If no server's receive maximum is below the configured send maximum, every PUBLISH of QoS 1 or 2, new or sent
again, is written within the quota of its connection. -/
theorem C71_receive_maximum_partial (o : Options) (tr : List Obs) (h : IsTraceWith o tr)
    (hmax : ∀ c, .read (.connAck c) ∈ tr → o.sendMaximum.toNat ≤ receiveMaximumOf c)
    (pre post : List Obs) (p : Publish) (a b : Nat) (e : tr = pre ++ .wrote (.publish p) a b :: post) (hq : p.qos ≠ .atMostOnce) :
    (quota pre).used < (quota pre).max := by
  have hob : Obeys o.cleanStart pre := (by rw [← e]; exact obeys h : Obeys o.cleanStart (pre ++ _ :: post)).left
  have hc := counted hob
  have hroot := rooted o.cleanStart pre
  have hsend := C65_sender o tr h pre post _ a b e
  have hm : o.sendMaximum.toNat ≤ (quota pre).max :=
    quota_max (by have := o.sendMaximum.toNat_lt; omega) (fun c hm => hmax c (by rw [e]; exact List.mem_append_left _ hm))
  have inTr : ∀ {x : Obs}, x ∈ pre → x ∈ tr := fun hx => by rw [e]; exact List.mem_append_left _ hx
  have hsub : ∀ i ∈ (sender o.cleanStart pre).unacked.filterMap (·.pkid) ++ (sender o.cleanStart pre).accepted,
      i ∈ (Pool.new o.sendMaximum).queue := by
    intro i hi
    rcases List.mem_append.mp hi with hi | hi
    · obtain ⟨q, hq, hi⟩ := List.mem_filterMap.mp hi
      obtain ⟨-, h2, t, t', h3⟩ := hroot.unacked q hq
      exact written_ids h (inTr h3) hi
    · obtain ⟨-, q, t, t', -, -, -, h4, h5, h6⟩ := hroot.accepted i hi
      exact written_ids h (inTr h4) h6
  have hlen : ((sender o.cleanStart pre).unacked.filterMap (·.pkid) ++ (sender o.cleanStart pre).accepted).length =
      (sender o.cleanStart pre).unacked.length + (sender o.cleanStart pre).accepted.length := by
    rw [List.length_append, pkids_length hc.pub]
  have hcount := hc.count
  rcases hsend with ⟨h1, -⟩ | ⟨-, h2, -, id, h4, h5, h6⟩ | ⟨-, -, q, hmem, -⟩
  · exact absurd h1 hq
  · have hid : id ∈ (Pool.new o.sendMaximum).queue := written_ids h (a := a) (b := b) (by rw [e]; simp) h4
    have hnew : (id :: ((sender o.cleanStart pre).unacked.filterMap (·.pkid) ++ (sender o.cleanStart pre).accepted)).Nodup := by
      refine List.nodup_cons.mpr ⟨?_, hc.nodup⟩
      rw [List.mem_append]
      rintro (hi | hi)
      · obtain ⟨p', hp', hi⟩ := List.mem_filterMap.mp hi
        have := (List.any_eq_false.mp h5) p' hp'
        simp [Sender.isFor, hi] at this
      · exact h6 hi
    have := hnew.length_le_of_subset (l₂ := (Pool.new o.sendMaximum).queue) (by
      intro i hi
      rcases List.mem_cons.mp hi with rfl | hi
      · exact hid
      · exact hsub i hi)
    rw [List.length_cons, hlen, Pool.length_new] at this
    omega
  · have := hc.nodup.length_le_of_subset (l₂ := (Pool.new o.sendMaximum).queue) (fun i hi => hsub i hi)
    rw [hlen, Pool.length_new] at this
    have := List.length_pos_of_mem hmem
    omega

/-- a CONNACK with a receive maximum of 1 -/
def oneAtATime : Bytes := [0x20, 0x06, 0x00, 0x00, 0x03, 0x21, 0x00, 0x01]

def tokioUpWith (c : Bytes) : List TokioOp := [.connect ⟨true, c, false, fun _ => true, true, at' 1⟩, .start]

def sendNow (q : Request) (t : Nat) : List TokioOp :=
  [.client (.call q), .client (.submit 0), .turn .outgoing 0 true (at' t)]

/-- with a send maximum of 1 the client keeps to it: the second publish waits for the PUBACK -/
example : let tr := tokioTrace oneIdOptions 0 (tokioUpWith oneAtATime ++ sendNow (demoPublish .atLeastOnce) 2 ++
      sendNow (demoPublish .atLeastOnce) 3 ++ [.arrive [0x40, 0x02, 0x00, 0x01], .turn .read 0 true (at' 4)] ++ sendNow (demoPublish .atLeastOnce) 5)
    (writtenIn tr).map (·.type) = [.connect, .publish, .publish] ∧ (quota tr).max = 1 ∧ (quota tr).used = 1 :=
  ⟨rfl, rfl, rfl⟩

/-- **C71, the case that fails.** The server's receive maximum of 1 is not looked at: with the session's own limit of 4 the
client has two publishes under way. -/
theorem C71_receive_maximum_violated : ∃ tr pre post p a b, IsTraceWith resumeOptions tr ∧
    tr = pre ++ .wrote (.publish p) a b :: post ∧ p.qos ≠ .atMostOnce ∧ (quota pre).max = 1 ∧ (quota pre).used = 1 := by
  have e : ∃ e₁ e₂ e₃ e₄ p₁ p₂ c, tokioTrace resumeOptions 0 (tokioUpWith oneAtATime ++ sendNow (demoPublish .atLeastOnce) 2 ++
      sendNow (demoPublish .atLeastOnce) 3) = [.wrote resumeOptions.connectPacket 1 1, .read (.connAck c), .delivered (.connAck c),
        .connected c 1, .started, .user e₁, .user e₂, .wrote (.publish p₁) 2 2, .user e₃, .user e₄] ++ .wrote (.publish p₂) 3 3 :: [] ∧
      p₂.qos = .atLeastOnce ∧ p₁.qos = .atLeastOnce ∧ receiveMaximumOf c = 1 :=
    ⟨_, _, _, _, _, _, _, rfl, rfl, rfl, rfl⟩
  obtain ⟨e₁, e₂, e₃, e₄, p₁, p₂, c, e, h1, h2, h3⟩ := e
  refine ⟨_, _, _, p₂, 3, 3, .tokio _ _ rfl, e, by simp [h1], ?_, ?_⟩
  · simp [quota, Quota.next, h2, h3, Options.connectPacket]
  · simp [quota, Quota.next, h2, h3, Options.connectPacket]

/-! ## C72 -/

theorem lastConnAck_read {tr : List Obs} {c : ConnAck} (h : lastConnAck tr = some c) : .read (.connAck c) ∈ tr := by
  have key : ∀ (tr : List Obs) (x : Option ConnAck),
      tr.foldl (fun c x => match x with | .read (.connAck c') => some c' | _ => c) x = some c →
      .read (.connAck c) ∈ tr ∨ x = some c := by
    intro tr
    induction tr with
    | nil => intro x h; exact .inr h
    | cons y tr ih =>
      intro x h
      rcases ih _ h with h | h
      · exact .inl (List.mem_cons_of_mem _ h)
      · simp only at h
        split at h
        · cases h; exact .inl List.mem_cons_self
        · exact .inr h
  rcases key tr none h with h | h
  · exact h
  · cases h

/-- a packet that the client has accepted is within the configured size -/
theorem called_fits {cfg : Config} {ops : List Op} {q : Request} {id : Option UInt16} {p : Packet} {s' : Sys}
    (hkind : p.type = .publish ∨ p.type = .subscribe ∨ p.type = .unsubscribe)
    (h : (client cfg ops).step (.call q) = some (s', .called q id p)) : p.bodyWireLen ≤ cfg.maxPacketSize := by
  have hmax : (client cfg ops).maxPacketSize = cfg.maxPacketSize := maxPacketSize_run ops _
  rw [← hmax]
  rcases call_cases h with ⟨t, id', ht, hw⟩ | ⟨_, he, _⟩
  · have htm : t.maxPacketSize = (client cfg ops).maxPacketSize := by cases ht <;> (rename_i ht; subst ht; rfl)
    obtain ⟨p', hp', hc | ⟨_, x, hx, _⟩⟩ := callWith_cases hw
    · obtain ⟨he, _, _, hv⟩ := hc
      simp only [Event.called.injEq, true_and] at he
      obtain ⟨rfl, rfl⟩ := he
      rw [htm] at hv
      revert hv
      cases p with
      | publish p => simp only [Packet.validate, Publish.validate, Packet.bodyWireLen]; split <;> simp; intro; omega
      | subscribe p => simp only [Packet.validate, Subscribe.validate, Packet.bodyWireLen]; split <;> simp; intro; omega
      | unsubscribe p => simp only [Packet.validate, Unsubscribe.validate, Packet.bodyWireLen]; split <;> simp; intro; omega
      | _ => simp [Packet.type] at hkind
    · simp at hx
  · simp at he

theorem ack_size {p : Packet} (h2 : p.bodyWireLen = 2) (ha : ¬ EmptyAuthData p) (hi : ¬ HasAssignedId p) {n : Nat} (h : SentSize p n) : n = 4 := by
  rcases h with ⟨bs, h, rfl⟩ | ⟨bs, k, h, rfl⟩
  · obtain ⟨a, b, h1, h2', rfl⟩ := Wr.append_eq_ok.1 h
    obtain ⟨c, d, h3, h4, rfl⟩ := Wr.append_eq_ok.1 h1
    cases h3
    rw [Packet.lenWrite_eq, h2, show VarInt.write 2 = .ok [2] from rfl] at h4
    cases h4
    have := Packet.bodyWrite_length ha h2'
    simp only [List.length_append, List.length_cons, List.length_nil] at *
    omega
  · obtain ⟨a, na, b, nb, h1, h2', rfl, -⟩ := AWr.append_eq_ok.1 h
    obtain ⟨c, nc, d, nd, h3, h4, rfl, -⟩ := AWr.append_eq_ok.1 h1
    cases h3
    rw [Packet.lenAsyncWrite_eq, h2] at h4
    have h4 := ((VarInt.asyncWrite_ok_iff _ _ _).1 h4).1
    rw [show VarInt.write 2 = .ok [2] from rfl] at h4
    cases h4
    have := (Packet.bodyAsyncWrite_length hi h2').1
    simp only [List.length_append, List.length_cons, List.length_nil] at *
    omega

theorem ack_plain {p : Packet} {P : Props} (h : propSets p = [P]) (hP : P = .empty) : ¬ EmptyAuthData p ∧ ¬ HasAssignedId p := by
  subst hP
  constructor <;> (rintro ⟨Q, hQ, hq⟩; rw [h, List.mem_singleton] at hQ; subst hQ; simp [Props.empty] at hq)

/-- **C72.** If the configured maximum and five bytes of header stay within what the server takes, everything written on its
connection after CONNECT does, but for a DISCONNECT that the application asks for, whose size is not looked at. -/
theorem C72_maximum_packet_size_partial (o : Options) (tr : List Obs) (h : IsTraceWith o tr)
    (hmax : ∀ c m, .read (.connAck c) ∈ tr → maximumPacketSizeOf c = some m → o.maximumPacketSize + 5 ≤ m)
    (hcalls : ∀ q id p, .user (.called q id p) ∈ tr → WF p ∧ p.type ≠ .disconnect)
    (pre post : List Obs) (p : Packet) (a b : Nat) (e : tr = pre ++ .wrote p a b :: post) (hp : p.type ≠ .connect)
    (c : ConnAck) (m : Nat) (hc : lastConnAck pre = some c) (hm : maximumPacketSizeOf c = some m) (n : Nat) (hn : SentSize p n) :
    n ≤ m := by
  have hle : o.maximumPacketSize + 5 ≤ m := hmax c m (by rw [e]; exact List.mem_append_left _ (lastConnAck_read hc)) hm
  have inTr : ∀ {x : Obs}, x ∈ pre → x ∈ tr := fun hx => by rw [e]; exact List.mem_append_left _ hx
  obtain ⟨fl, t, w, hv⟩ := h.vrun
  have asked : ∀ p, AskedIn tr p → WF p ∧ (p.type = .publish ∨ p.type = .subscribe ∨ p.type = .unsubscribe) ∧
      p.bodyWireLen ≤ o.maximumPacketSize := by
    rintro p ⟨q, id, hmem⟩
    obtain ⟨sops, s', hs⟩ := hv.called hmem
    obtain ⟨g1, -⟩ := C49_call_content _ _ _ _ _ hs
    obtain ⟨g2, g3⟩ := hcalls q id p hmem
    have hk : p.type = .publish ∨ p.type = .subscribe ∨ p.type = .unsubscribe := by
      cases g1 <;> first | exact .inl rfl | exact .inr (.inl rfl) | exact .inr (.inr rfl) | exact absurd rfl g3
    exact ⟨g2, hk, called_fits hk hs⟩
  have small : ∀ {p : Packet} {bs bs' : Bytes} {k : Nat}, p.write = .ok bs → p.asyncWrite = .ok (bs', k) → bs.length ≤ 5 →
      bs'.length ≤ 5 → SentSize p n → n ≤ m := by
    rintro p bs bs' k h1 h2 h3 h4 (⟨_, h5, rfl⟩ | ⟨_, _, h5, rfl⟩)
    · rw [h1] at h5; cases h5; omega
    · rw [h2] at h5; cases h5; omega
  have horig := C69_origin _ tr h pre post p a b e
  cases horig with
  | connect => exact absurd rfl hp
  | asked ha =>
    obtain ⟨h1, h2, h3⟩ := asked p (by rw [e]; exact askedIn_more ha _)
    have := sent_size h1 h2 hn
    omega
  | copy hw hq hd =>
    rename_i q a' b'
    obtain ⟨pre', post', e'⟩ := List.append_of_mem (inTr hw)
    have := C69_origin _ tr h pre' post' _ _ _ e'
    cases this with
    | asked ha =>
      obtain ⟨h1, h2, h3⟩ := asked (.publish q) (by rw [e']; exact askedIn_more ha _)
      have := sent_size (p := .publish { q with dup := true }) h1 (.inl rfl) hn
      have h4 : (Packet.publish { q with dup := true }).bodyWireLen = (Packet.publish q).bodyWireLen := rfl
      omega
    | copy => simp at hd
  | pubAck => have := ack_size rfl (ack_plain (P := .empty) rfl rfl).1 (ack_plain (P := .empty) rfl rfl).2 hn; omega
  | pubRec => have := ack_size rfl (ack_plain (P := .empty) rfl rfl).1 (ack_plain (P := .empty) rfl rfl).2 hn; omega
  | pubComp => have := ack_size rfl (ack_plain (P := .empty) rfl rfl).1 (ack_plain (P := .empty) rfl rfl).2 hn; omega
  | pubRel => have := ack_size rfl (ack_plain (P := .empty) rfl rfl).1 (ack_plain (P := .empty) rfl rfl).2 hn; omega
  | pingReq => exact small rfl rfl (by simp) (by simp) hn
  | timeout => exact small rfl rfl (by simp) (by simp) hn

/-- a CONNACK with this maximum packet size -/
def sizeConnAck (n : UInt8) : Bytes := [0x20, 0x08, 0x00, 0x00, 0x05, 0x27, 0x00, 0x00, 0x00, n]

/-- a client that is told to send at most 7 bytes -/
def smallOptions : Options := Options.build ⟨[97], by decide⟩ [.receiveMax 2, .sendMax 2, .maxPacketSize 7]

theorem sizeTrace_eq (o : Options) (n : UInt8) (ho : o = smallOptions ∨ o = legalOptions) (hn : n = 8 ∨ n = 12) :
    ∃ p₂ c, tokioTrace o 0 (tokioUpWith (sizeConnAck n) ++ sendNow (demoPublish .atMostOnce) 2) =
      [.wrote o.connectPacket 1 1, .read (.connAck c), .delivered (.connAck c), .connected c 1, .started,
        .user (.called (demoPublish .atMostOnce) none (.publish ⟨false, .atMostOnce, false, ⟨[116], by decide⟩, none, .empty, [1, 2, 3]⟩)),
        .user p₂] ++ .wrote (.publish ⟨false, .atMostOnce, false, ⟨[116], by decide⟩, none, .empty, [1, 2, 3]⟩) 2 2 :: [] ∧
      maximumPacketSizeOf c = some n.toNat := by
  rcases ho with rfl | rfl <;> rcases hn with rfl | rfl <;> exact ⟨_, _, rfl, rfl⟩

/-- the hypotheses hold when the client is configured for 7 bytes and the server takes 12 -/
example : let tr := tokioTrace smallOptions 0 (tokioUpWith (sizeConnAck 12) ++ sendNow (demoPublish .atMostOnce) 2)
    IsTraceWith smallOptions tr ∧
    (∀ c m, .read (.connAck c) ∈ tr → maximumPacketSizeOf c = some m → smallOptions.maximumPacketSize + 5 ≤ m) ∧
    (∀ q id p, .user (.called q id p) ∈ tr → WF p ∧ p.type ≠ .disconnect) ∧ ∃ p, .wrote (.publish p) 2 2 ∈ tr := by
  obtain ⟨p₂, c, e, hc⟩ := sizeTrace_eq smallOptions 12 (.inl rfl) (.inr rfl)
  refine ⟨.tokio _ _ rfl, ?_, ?_, ?_⟩
  · intro c' m hm h
    rw [e] at hm
    simp [Options.connectPacket] at hm
    subst hm
    rw [hc] at h
    cases h
    decide
  · have e' : ∃ p₂ c, tokioTrace smallOptions 0 (tokioUpWith (sizeConnAck 12) ++ sendNow (demoPublish .atMostOnce) 2) =
      [.wrote smallOptions.connectPacket 1 1, .read (.connAck c), .delivered (.connAck c), .connected c 1, .started,
        .user (.called (demoPublish .atMostOnce) none (.publish ⟨false, .atMostOnce, false, ⟨[116], by decide⟩, none, .empty, [1, 2, 3]⟩)),
        .user (.submitted p₂), .wrote (.publish ⟨false, .atMostOnce, false, ⟨[116], by decide⟩, none, .empty, [1, 2, 3]⟩) 2 2] := ⟨_, _, rfl⟩
    obtain ⟨p₂, c, e'⟩ := e'
    intro q id p hm
    rw [e'] at hm
    simp only [List.mem_cons, Obs.user.injEq, reduceCtorEq, false_or, Event.called.injEq, or_false, List.not_mem_nil] at hm
    obtain ⟨-, -, rfl⟩ := hm
    exact ⟨⟨by simp [StrOk], by simp, Mqrstt.Witness.wf_empty _⟩, by simp [Packet.type]⟩
  · rw [e]
    exact ⟨_, List.mem_append_right _ List.mem_cons_self⟩

/-- **C72, the case that fails.** The server takes 8 bytes, the client sends 9. -/
theorem C72_maximum_packet_size_violated : ∃ tr pre post p a b c, IsTraceWith legalOptions tr ∧
    tr = pre ++ .wrote p a b :: post ∧ lastConnAck pre = some c ∧ maximumPacketSizeOf c = some 8 ∧ SentSize p 9 := by
  obtain ⟨p₂, c, e, hc⟩ := sizeTrace_eq legalOptions 8 (.inr rfl) (.inl rfl)
  refine ⟨_, _, _, _, 2, 2, c, .tokio _ _ rfl, e, ?_, hc, .inl ⟨_, rfl, rfl⟩⟩
  simp [lastConnAck, Options.connectPacket]

/-! ## C73 -/

/-- **C73.** If all that the application asks for is supported by the servers it meets, all that is ever written is supported
by the server it is written to. -/
theorem C73_capabilities_partial (o : Options) (tr : List Obs) (h : IsTraceWith o tr)
    (hcalls : ∀ q id p c, .user (.called q id p) ∈ tr → .read (.connAck c) ∈ tr → Supported c p)
    (pre post : List Obs) (p : Packet) (a b : Nat) (e : tr = pre ++ .wrote p a b :: post) (c : ConnAck) (hc : lastConnAck pre = some c) :
    Supported c p := by
  have inTr : ∀ {x : Obs}, x ∈ pre → x ∈ tr := fun hx => by rw [e]; exact List.mem_append_left _ hx
  have hread := inTr (lastConnAck_read hc)
  have horig := C69_origin _ tr h pre post p a b e
  cases horig with
  | asked ha =>
    obtain ⟨q, id, hm⟩ := ha
    exact hcalls q id p c (inTr hm) hread
  | copy hw hq hd =>
    obtain ⟨pre', post', e'⟩ := List.append_of_mem (inTr hw)
    have := C69_origin _ tr h pre' post' _ _ _ e'
    cases this with
    | asked ha =>
      obtain ⟨q', id, hm⟩ := ha
      have := hcalls q' id _ c (by rw [e']; exact List.mem_append_left _ hm) hread
      exact this
    | copy => simp at hd
  | _ => trivial

/-- a CONNACK that allows QoS 0 only and no wildcards: maximum QoS 0, wildcard subscription available 0 -/
def poorConnAck : Bytes := [0x20, 0x07, 0x00, 0x00, 0x04, 0x24, 0x00, 0x28, 0x00]

theorem poorTrace_eq (q : Request) (hq : q = demoPublish .atLeastOnce ∨ q = demoPublish .atMostOnce ∨ q = legalSubscribe) :
    ∃ e₁ e₂ c p, tokioTrace legalOptions 0 (tokioUpWith poorConnAck ++ sendNow q 2) =
      [.wrote legalOptions.connectPacket 1 1, .read (.connAck c), .delivered (.connAck c), .connected c 1, .started,
        .user e₁, .user e₂] ++ .wrote p 2 2 :: [] ∧
      c.props.val .maximumQos = some .atMostOnce ∧ c.props.val .wildcardSubscriptionAvailable = some false ∧
      ∃ id, q.packet id = some p ∧ e₁ = .called q id p ∧ e₂ = .submitted p := by
  rcases hq with rfl | rfl | rfl
  · exact ⟨_, _, _, _, rfl, rfl, rfl, some 1, rfl, rfl, rfl⟩
  · exact ⟨_, _, _, _, rfl, rfl, rfl, none, rfl, rfl, rfl⟩
  · exact ⟨_, _, _, _, rfl, rfl, rfl, some 1, rfl, rfl, rfl⟩

/-- the hypotheses hold of a client that sends QoS 0 to a server which takes nothing else -/
example : let tr := tokioTrace legalOptions 0 (tokioUpWith poorConnAck ++ sendNow (demoPublish .atMostOnce) 2)
    IsTraceWith legalOptions tr ∧ (∀ q id p c, .user (.called q id p) ∈ tr → .read (.connAck c) ∈ tr → Supported c p) ∧
    ∃ p, .wrote p 2 2 ∈ tr := by
  obtain ⟨e₁, e₂, c, p, e, h1, h2, id, h3, rfl, rfl⟩ := poorTrace_eq _ (.inr (.inl rfl))
  refine ⟨.tokio _ _ rfl, ?_, ?_⟩
  · intro q' id' p' c' hm hr
    rw [e] at hm hr
    simp [Options.connectPacket] at hm hr
    subst hr
    obtain ⟨-, -, rfl⟩ := hm
    cases h3
    exact ⟨by simp [QosSupported, h1], by simp, by intro n hn; cases hn⟩
  · rw [e]
    exact ⟨p, by simp⟩

/-- **C73, the case that fails.** The client sends QoS 1 to a server that supports QoS 0 only, and a subscription with a
wildcard to one that has none. -/
theorem C73_capabilities_violated :
    (∃ tr pre post p a b c, IsTraceWith legalOptions tr ∧ tr = pre ++ .wrote (.publish p) a b :: post ∧ lastConnAck pre = some c ∧
      ¬ QosSupported c p.qos) ∧
    (∃ tr pre post p a b c, IsTraceWith legalOptions tr ∧ tr = pre ++ .wrote (.subscribe p) a b :: post ∧ lastConnAck pre = some c ∧
      ¬ Supported c (.subscribe p)) := by
  constructor
  · obtain ⟨e₁, e₂, c, p, e, h1, h2, id, h3, -, -⟩ := poorTrace_eq _ (.inl rfl)
    cases h3
    refine ⟨_, _, _, _, 2, 2, c, .tokio _ _ rfl, e, by simp [lastConnAck, Options.connectPacket], ?_⟩
    simp [QosSupported, h1]
  · obtain ⟨e₁, e₂, c, p, e, h1, h2, id, h3, -, -⟩ := poorTrace_eq _ (.inr (.inr rfl))
    obtain ⟨i, rfl⟩ : ∃ i, id = some i := by
      cases id with
      | none => cases h3
      | some i => exact ⟨i, rfl⟩
    cases h3
    refine ⟨_, _, _, _, 2, 2, c, .tokio _ _ rfl, e, by simp [lastConnAck, Options.connectPacket], ?_⟩
    rintro ⟨h, -⟩
    exact h _ List.mem_cons_self (.inr (by decide)) h2

/-! ## C74 -/

/-- **C74.** If the application never leaves out a topic, the server can tell the topic of every message written. -/
theorem C74_topic_alias_partial (o : Options) (tr : List Obs) (h : IsTraceWith o tr)
    (hcalls : ∀ q id p, .user (.called q id (.publish p)) ∈ tr → p.topic.bytes ≠ [])
    (pre post : List Obs) (p : Publish) (a b : Nat) (e : tr = pre ++ .wrote (.publish p) a b :: post) :
    TopicKnown (aliases pre) p := by
  have inTr : ∀ {x : Obs}, x ∈ pre → x ∈ tr := fun hx => by rw [e]; exact List.mem_append_left _ hx
  have horig := C69_origin _ tr h pre post _ a b e
  cases horig with
  | asked ha =>
    obtain ⟨q, id, hm⟩ := ha
    exact .inl (hcalls q id p (inTr hm))
  | copy hw hq hd =>
    obtain ⟨pre', post', e'⟩ := List.append_of_mem (inTr hw)
    have := C69_origin _ tr h pre' post' _ _ _ e'
    cases this with
    | asked ha =>
      obtain ⟨q', id, hm⟩ := ha
      have := hcalls q' id _ (by rw [e']; exact List.mem_append_left _ hm)
      exact .inl this
    | copy => simp at hd

example : let tr := tokioTrace resumeOptions 0 onceOps
    (∀ q id p, .user (.called q id (.publish p)) ∈ tr → p.topic.bytes ≠ []) ∧ ∃ p, .wrote (.publish p) 4 4 ∈ tr := by
  have e : ∃ p₂ r, onceTrace = [.wrote resumeOptions.connectPacket 1 1, .read (.connAck ⟨false, .success, .empty⟩),
      .delivered (.connAck ⟨false, .success, .empty⟩), .connected ⟨false, .success, .empty⟩ 1, .started,
      .user (.called (demoPublish .exactlyOnce) (some 1) (.publish onceMessage)), .user (.submitted p₂),
      .wrote (.publish onceMessage) 2 2, .ended r,
      .wrote resumeOptions.connectPacket 4 4, .read (.connAck ⟨true, .success, .empty⟩), .delivered (.connAck ⟨true, .success, .empty⟩),
      .wrote (.publish { onceMessage with dup := true }) 4 4, .connected ⟨true, .success, .empty⟩ 4, .started,
      .read (.pubRec ⟨1, .success, .empty⟩), .delivered (.pubRec ⟨1, .success, .empty⟩), .wrote (.pubRel ⟨1, .success, .empty⟩) 5 5,
      .read (.pubComp ⟨1, .success, .empty⟩), .delivered (.pubComp ⟨1, .success, .empty⟩)] := ⟨_, _, rfl⟩
  obtain ⟨p₂, r, e⟩ := e
  refine ⟨?_, ?_⟩
  · intro q id p hm
    have hm : .user (.called q id (.publish p)) ∈ onceTrace := hm
    rw [e] at hm
    simp only [List.mem_cons, Obs.user.injEq, reduceCtorEq, false_or, Event.called.injEq, or_false, List.not_mem_nil] at hm
    obtain ⟨-, -, h⟩ := hm
    cases h
    decide
  · show ∃ p, .wrote (.publish p) 4 4 ∈ onceTrace
    rw [e]
    exact ⟨{ onceMessage with dup := true }, by simp [Options.connectPacket]⟩

/-- a message to topic `t` that sets alias 1 -/
def aliasFirst : Request := .publish ⟨[116], by decide⟩ .atLeastOnce false [1] (Props.empty.set .topicAlias 1)

/-- a message to alias 1 -/
def aliasNext : Request := .publish ⟨[], by decide⟩ .atLeastOnce false [2] (Props.empty.set .topicAlias 1)

/-- a CONNACK with a topic alias maximum of 10 -/
def aliasConnAck : Bytes := [0x20, 0x06, 0x00, 0x00, 0x03, 0x22, 0x00, 0x0A]

/-- The server allows topic aliases; one message sets alias 1 and is acknowledged, the next one uses it. The connection is
lost before that one is acknowledged, and the session resumed. -/
def aliasOps : List TokioOp :=
  tokioUpWith aliasConnAck ++ sendNow aliasFirst 2 ++ [.arrive [0x40, 0x02, 0x00, 0x01], .turn .read 0 true (at' 3)] ++
    sendNow aliasNext 4 ++ [.turn .readError 0 true (at' 5), .connect ⟨true, resumedConnAck, false, fun _ => true, true, at' 6⟩]

/-- **C74, the case that fails.** What was sent with an alias is sent again with the alias only, on a connection on which
the server does not know it: the server has to close it with "topic alias invalid" or "protocol error". While the alias was
known the application had every right to use it. -/
theorem C74_topic_alias_violated : ∃ tr pre₁ pre₂ post p, IsTraceWith resumeOptions tr ∧
    tr = pre₁ ++ .wrote (.publish p) 4 4 :: pre₂ ++ .wrote (.publish { p with dup := true }) 6 6 :: post ∧
    TopicKnown (aliases pre₁) p ∧
    ¬ TopicKnown (aliases (pre₁ ++ .wrote (.publish p) 4 4 :: pre₂)) { p with dup := true } := by
  have e : ∃ e₁ e₂ e₃ e₄ p p₁ c c₂ r a, tokioTrace resumeOptions 0 aliasOps = [.wrote resumeOptions.connectPacket 1 1, .read (.connAck c), .delivered (.connAck c),
        .connected c 1, .started, .user e₁, .user e₂, .wrote (.publish p₁) 2 2, .read (.pubAck a), .delivered (.pubAck a), .user e₃, .user e₄] ++
        .wrote (.publish p) 4 4 :: [.ended r, .wrote resumeOptions.connectPacket 6 6, .read (.connAck c₂), .delivered (.connAck c₂)] ++
        .wrote (.publish { p with dup := true }) 6 6 :: [.connected c₂ 6] ∧
      p₁.topic.bytes = [116] ∧ p₁.props.val .topicAlias = some 1 ∧ p.topic.bytes = [] ∧ p.props.val .topicAlias = some 1 :=
    ⟨_, _, _, _, _, _, _, _, _, _, rfl, rfl, rfl, rfl, rfl⟩
  obtain ⟨e₁, e₂, e₃, e₄, p, p₁, c, c₂, r, a, e, h1, h2, h3, h4⟩ := e
  refine ⟨_, _, _, _, p, .tokio _ _ rfl, e, .inr ⟨1, h4, ?_⟩, ?_⟩
  · simp [aliases, Options.connectPacket, h1, h2]
  · rintro (h | ⟨n, -, h⟩)
    · exact h h3
    · simp [aliases, Options.connectPacket, h1, h2, h3, h4] at h

end Mqrstt.Props
