import Verif.Proof.Liberty
/-! # What the streaming reader accepts is MQTT, liberties taken -/

namespace Mqrstt
open Spec Mqrstt.Props

theorem aAck_tail {t : PacketType} {s : Spec.Section} {codes : List Reason} (hc : ∀ r, IsCode t r ↔ r ∈ codes)
    {b b1 rest : Bytes} {r : Reason} {n m : Nat} {P : Props}
    (h1 : Reason.asyncRead codes b = .ok ((r, n), b1)) (h2 : Props.asyncRead (streamingEntries s) b1 = .ok ((P, m), rest)) :
    ∃ bs, b = bs ++ rest ∧ bs.length = n + m ∧ ReasonSaysBut t (AckSectionSaysBut streaming s P) .success r P bs := by
  obtain ⟨rfl, rfl, hm⟩ := Reason.asyncRead_inv h1
  obtain ⟨sec, rfl, hl, hs⟩ := section_streaming h2
  exact ⟨reasonNumber r :: sec, rfl, by simp; omega, .inr (.inr ⟨(hc r).2 hm, sec, rfl, .inl hs⟩)⟩

theorem aPubAck_says {len n : Nat} {b rest : Bytes} {a : Ack} (h : Ack.asyncReadPubAck len b = .ok ((a, n), rest)) :
    ∃ bs, b = bs ++ rest ∧ AckSaysBut streaming .pubAck .pubAck a bs := by
  simp only [Ack.asyncReadPubAck, Rd.ite_apply] at h
  split at h
  · cases h
  · obtain ⟨id, b1, h1, h2⟩ := Rd.bind_eq_ok.1 h
    obtain ⟨ids, rfl, hlen, hid⟩ := aU16_says h1
    simp only [Rd.ite_apply] at h2
    split at h2
    · cases h2
      exact ⟨ids, rfl, ids, [], by simp, hid, .inl ⟨rfl, rfl, noProps_empty⟩⟩
    · obtain ⟨⟨r, k⟩, b2, h3, h4⟩ := Rd.bind_eq_ok.1 h2
      simp only [Rd.ite_apply] at h4
      split at h4
      · cases h4
        obtain ⟨rfl, -, hm⟩ := Reason.asyncRead_inv h3
        exact ⟨ids ++ [reasonNumber r], by simp, ids, _, rfl, hid,
          .inr (.inl ⟨((isCode_iff r).2.1).2 hm, rfl, noProps_empty⟩)⟩
      · obtain ⟨⟨P, m⟩, b3, h5, h6⟩ := Rd.bind_eq_ok.1 h4
        cases h6
        obtain ⟨bs, rfl, -, hs⟩ := aAck_tail (s := .pubAck) (fun r => (isCode_iff r).2.1) h3 h5
        exact ⟨ids ++ bs, by simp, ids, bs, rfl, hid, hs⟩

theorem aPubRec_says {len n : Nat} {b rest : Bytes} {a : Ack} (h : Ack.asyncReadPubRec len b = .ok ((a, n), rest)) :
    ∃ bs, b = bs ++ rest ∧ AckSaysBut streaming .pubRec .pubRec a bs := by
  obtain ⟨id, b1, h1, h2⟩ := Rd.bind_eq_ok.1 h
  obtain ⟨ids, rfl, hlen, hid⟩ := aU16_says h1
  simp only [Rd.ite_apply] at h2
  split at h2
  · cases h2
    exact ⟨ids, rfl, ids, [], by simp, hid, .inl ⟨rfl, rfl, noProps_empty⟩⟩
  · obtain ⟨⟨r, k⟩, b2, h3, h4⟩ := Rd.bind_eq_ok.1 h2
    obtain ⟨⟨P, m⟩, b3, h5, h6⟩ := Rd.bind_eq_ok.1 h4
    cases h6
    obtain ⟨bs, rfl, -, hs⟩ := aAck_tail (s := .pubRec) (fun r => (isCode_iff r).2.2.1) h3 h5
    exact ⟨ids ++ bs, by simp, ids, bs, rfl, hid, hs⟩

theorem aPubComp_says {len n : Nat} {b rest : Bytes} {a : Ack} (h : Ack.asyncReadPubComp len b = .ok ((a, n), rest)) :
    ∃ bs, b = bs ++ rest ∧ bs.length = len ∧ AckSaysBut streaming .pubComp .pubComp a bs := by
  obtain ⟨id, b1, h1, h2⟩ := Rd.bind_eq_ok.1 h
  obtain ⟨ids, rfl, hlen, hid⟩ := aU16_says h1
  simp only [Rd.ite_apply] at h2
  split at h2
  · cases h2
    exact ⟨ids, rfl, by omega, ids, [], by simp, hid, .inl ⟨rfl, rfl, noProps_empty⟩⟩
  · split at h2
    · cases h2
    · obtain ⟨⟨r, k⟩, b2, h3, h4⟩ := Rd.bind_eq_ok.1 h2
      obtain ⟨⟨P, m⟩, b3, h5, h6⟩ := Rd.bind_eq_ok.1 h4
      simp only [Rd.ite_apply] at h6
      split at h6
      · cases h6
      · cases h6
        obtain ⟨bs, rfl, hl, hs⟩ := aAck_tail (s := .pubComp) (fun r => (isCode_iff r).2.2.2.2.1) h3 h5
        exact ⟨ids ++ bs, by simp, by simp; omega, ids, bs, rfl, hid, hs⟩

theorem aPubRel_says {len n : Nat} {b rest : Bytes} {a : Ack} (h : Ack.asyncReadPubRel len b = .ok ((a, n), rest)) :
    ∃ bs, b = bs ++ rest ∧ AckSaysBut streaming .pubRel .pubRel a bs := by
  obtain ⟨id, b1, h1, h2⟩ := Rd.bind_eq_ok.1 h
  obtain ⟨ids, rfl, hlen, hid⟩ := aU16_says h1
  simp only [Rd.ite_apply] at h2
  split at h2
  · cases h2
    exact ⟨ids, rfl, ids, [], by simp, hid, .inl ⟨rfl, rfl, noProps_empty⟩⟩
  · obtain ⟨⟨r, k⟩, b2, h3, h4⟩ := Rd.bind_eq_ok.1 h2
    simp only [Rd.ite_apply] at h4
    split at h4
    · cases h4
      obtain ⟨rfl, -, hm⟩ := Reason.asyncRead_inv h3
      exact ⟨ids ++ [reasonNumber r], by simp, ids, _, rfl, hid,
        .inr (.inl ⟨((isCode_iff r).2.2.2.1).2 hm, rfl, noProps_empty⟩)⟩
    · obtain ⟨⟨P, m⟩, b3, h5, h6⟩ := Rd.bind_eq_ok.1 h4
      cases h6
      obtain ⟨bs, rfl, -, hs⟩ := aAck_tail (s := .pubRel) (fun r => (isCode_iff r).2.2.2.1) h3 h5
      exact ⟨ids ++ bs, by simp, ids, bs, rfl, hid, hs⟩

theorem aConnAck_says {n : Nat} {b rest : Bytes} {c : ConnAck} (h : ConnAck.asyncRead b = .ok ((c, n), rest)) :
    ∃ bs, b = bs ++ rest ∧ BodySaysBut streaming (.connAck c) bs := by
  obtain ⟨⟨sp, k⟩, b1, h3, h4⟩ := Rd.bind_eq_ok.1 h
  obtain ⟨x, b2, g1, g2⟩ := Rd.bind_eq_ok.1 h3
  cases g2
  rw [aU8_ok g1]
  obtain ⟨⟨r, k⟩, b3, h5, h6⟩ := Rd.bind_eq_ok.1 h4
  obtain ⟨⟨P, m⟩, b4, h7, h8⟩ := Rd.bind_eq_ok.1 h6
  cases h8
  obtain ⟨rfl, -, hm⟩ := Reason.asyncRead_inv h5
  obtain ⟨sec, rfl, -, hs⟩ := section_streaming (s := .connAck) h7
  exact ⟨x :: reasonNumber r :: sec, rfl, x, x.toNat / 2, sec, [], by simp, connAckFlags_byte x, .inl (by simp [streaming]),
    ((isCode_iff r).1).2 hm, hs, .inr rfl⟩

theorem aDisconnect_says {len n : Nat} {b rest : Bytes} {d : ReasonProps}
    (h : Disconnect.asyncRead len b = .ok ((d, n), rest)) : ∃ bs, b = bs ++ rest ∧ BodySaysBut streaming (.disconnect d) bs := by
  simp only [Disconnect.asyncRead, Rd.ite_apply] at h
  split at h
  · cases h
    exact ⟨[], rfl, .inl ⟨rfl, rfl, noProps_empty⟩⟩
  · obtain ⟨⟨r, k⟩, b3, h5, h6⟩ := Rd.bind_eq_ok.1 h
    obtain ⟨⟨P, m⟩, b4, h7, h8⟩ := Rd.bind_eq_ok.1 h6
    cases h8
    obtain ⟨rfl, -, hm⟩ := Reason.asyncRead_inv h5
    obtain ⟨sec, rfl, -, hs⟩ := section_streaming (s := .disconnect) h7
    exact ⟨reasonNumber r :: sec, rfl,
      .inr (.inr ⟨((isCode_iff r).2.2.2.2.2.2.2.1).2 hm, _, rfl, sec, [], by simp, hs, .inr rfl⟩)⟩

theorem aAuth_says {n : Nat} {b rest : Bytes} {d : ReasonProps} (h : Auth.asyncRead b = .ok ((d, n), rest)) :
    ∃ bs, b = bs ++ rest ∧ BodySaysBut streaming (.auth d) bs := by
  obtain ⟨⟨r, k⟩, b3, h5, h6⟩ := Rd.bind_eq_ok.1 h
  obtain ⟨⟨P, m⟩, b4, h7, h8⟩ := Rd.bind_eq_ok.1 h6
  cases h8
  obtain ⟨rfl, -, hm⟩ := Reason.asyncRead_inv h5
  obtain ⟨sec, rfl, -, hs⟩ := section_streaming (s := .auth) h7
  exact ⟨reasonNumber r :: sec, rfl,
    .inr ⟨((isCode_iff r).2.2.2.2.2.2.2.2).2 hm, sec, [], by simp, hs, .inr rfl⟩⟩

theorem aPublish_says {f : UInt8} {len n : Nat} {b rest : Bytes} {p : Publish}
    (h : Publish.asyncRead f len b = .ok ((p, n), rest)) :
    (∃ bs, b = bs ++ rest ∧ bs.length = len ∧ BodySaysBut streaming (.publish p) bs) ∧
      (f.toNat < 16 → f.toNat = publishFlags p.dup p.qos p.retain) := by
  obtain ⟨q, b1, h1, h2⟩ := Rd.bind_eq_ok.1 h
  obtain ⟨hq, rfl⟩ := lift_ok_inv h1
  obtain ⟨⟨topic, tn⟩, b2, h3, h4⟩ := Rd.bind_eq_ok.1 h2
  obtain ⟨ts, rfl, htl, ht⟩ := asyncReadStr_ok h3
  obtain ⟨pkid, k, ids, b3, rfl, hk, hid, hi, h6⟩ : ∃ pkid k ids b3, b2 = ids ++ b3 ∧ ids.length = k ∧
      OptSays U16Says pkid ids ∧ (pkid.isSome ↔ q ≠ .atMostOnce) ∧ (do
        let (props, m) ← Props.asyncRead publishEntries
        let total := tn + k + m
        if total > len then Rd.de .malformedPacket
        else
          let payload ← aExact (len - total)
          pure ((⟨f &&& 0b1000 != 0, q, f &&& 0b1 != 0, topic, pkid, props, payload⟩ : Publish), total + (len - total)))
            b3 = .ok ((p, n), rest) := by
    simp only [Rd.ite_apply] at h4
    split at h4
    · rename_i hne
      exact ⟨none, 0, [], b2, rfl, rfl, rfl, by simpa using hne, h4⟩
    · rename_i hne
      obtain ⟨i, b6, h11, h12⟩ := Rd.bind_eq_ok.1 h4
      obtain ⟨ids, rfl, hl, hid⟩ := aU16_says h11
      exact ⟨some i, 2, ids, b6, rfl, hl, hid, by simpa using hne, h12⟩
  obtain ⟨⟨P, m⟩, b4, h7, h8⟩ := Rd.bind_eq_ok.1 h6
  obtain ⟨sec, rfl, hsl, hs⟩ := section_streaming (s := .publish) h7
  simp only [Rd.ite_apply] at h8
  split at h8
  · cases h8
  · obtain ⟨pl, b5, h9, h10⟩ := Rd.bind_eq_ok.1 h8
    cases h10
    obtain ⟨rfl, hpl⟩ := aExact_ok h9
    exact ⟨⟨ts ++ ids ++ sec ++ pl, by simp, by simp; omega, ts, ids, sec, rfl, ht, hid, hi, hs⟩, publishFlags_byte f q hq⟩

theorem aFilter_says {b b1 rest : Bytes} {t : Str} {o : SubOptions} {n m : Nat} (h1 : asyncReadStr b = .ok ((t, n), b1))
    (h2 : SubOptions.asyncRead b1 = .ok ((o, m), rest)) : ∃ bs, b = bs ++ rest ∧ FilterSaysBut streaming (t, o) bs := by
  obtain ⟨ts, rfl, -, ht⟩ := asyncReadStr_ok h1
  obtain ⟨x, b2, g1, g2⟩ := Rd.bind_eq_ok.1 h2
  obtain ⟨o', b3, g3, g4⟩ := Rd.bind_eq_ok.1 g2
  cases g4
  obtain ⟨e, rfl⟩ := lift_ok_inv g3
  rw [aU8_ok g1]
  exact ⟨ts ++ [x], by simp, ts, x, x.toNat / 64, rfl, ht, subOptions_byte x o e, .inl (by simp [streaming])⟩

theorem aTopics_say {len : Nat} : ∀ (fuel total n : Nat) (b rest : Bytes) (ts : List (Str × SubOptions)),
    Subscribe.asyncTopics len fuel total b = .ok ((ts, n), rest) →
      ∃ bs, b = bs ++ rest ∧ ts ≠ [] ∧ ListSays (FilterSaysBut streaming) ts bs := by
  intro fuel
  induction fuel with
  | zero => intro total n b rest ts h; cases h
  | succ fuel ih =>
    intro total n b rest ts h
    rw [Subscribe.asyncTopics] at h
    obtain ⟨⟨t, k⟩, b1, h1, h2⟩ := Rd.bind_eq_ok.1 h
    obtain ⟨⟨o, m⟩, b2, h3, h4⟩ := Rd.bind_eq_ok.1 h2
    obtain ⟨bs, rfl, hf⟩ := aFilter_says h1 h3
    simp only [Rd.ite_apply] at h4
    split at h4
    · cases h4
      exact ⟨bs ++ [], by simp, by simp, .cons hf .nil⟩
    · obtain ⟨⟨ts', k'⟩, b4, h7, h8⟩ := Rd.bind_eq_ok.1 h4
      cases h8
      obtain ⟨cs, rfl, -, hcs⟩ := ih _ _ _ _ _ h7
      exact ⟨bs ++ cs, by simp, by simp, .cons hf hcs⟩

theorem aStrs_say {len : Nat} : ∀ (fuel total n : Nat) (b rest : Bytes) (ts : List Str),
    Unsubscribe.asyncTopics len fuel total b = .ok ((ts, n), rest) →
      ∃ bs, b = bs ++ rest ∧ ts ≠ [] ∧ ListSays StrSays ts bs := by
  intro fuel
  induction fuel with
  | zero => intro total n b rest ts h; cases h
  | succ fuel ih =>
    intro total n b rest ts h
    rw [Unsubscribe.asyncTopics] at h
    obtain ⟨⟨t, k⟩, b1, h1, h2⟩ := Rd.bind_eq_ok.1 h
    obtain ⟨bs, rfl, -, hf⟩ := asyncReadStr_ok h1
    simp only [Rd.ite_apply] at h2
    split at h2
    · cases h2
      exact ⟨bs ++ [], by simp, by simp, .cons hf .nil⟩
    · obtain ⟨⟨ts', k'⟩, b4, h7, h8⟩ := Rd.bind_eq_ok.1 h2
      cases h8
      obtain ⟨cs, rfl, -, hcs⟩ := ih _ _ _ _ _ h7
      exact ⟨bs ++ cs, by simp, by simp, .cons hf hcs⟩

theorem aSubscribe_says {len n : Nat} {b rest : Bytes} {s : Subscribe} (h : Subscribe.asyncRead len b = .ok ((s, n), rest)) :
    ∃ bs, b = bs ++ rest ∧ BodySaysBut streaming (.subscribe s) bs := by
  obtain ⟨id, b1, h1, h2⟩ := Rd.bind_eq_ok.1 h
  obtain ⟨ids, rfl, -, hid⟩ := aU16_says h1
  obtain ⟨⟨P, k⟩, b2, h3, h4⟩ := Rd.bind_eq_ok.1 h2
  obtain ⟨sec, rfl, -, hs⟩ := section_streaming (s := .subscribe) h3
  obtain ⟨m, b3, h5, h6⟩ := Rd.bind_eq_ok.1 h4
  cases h5
  obtain ⟨⟨ts, k⟩, b4, h7, h8⟩ := Rd.bind_eq_ok.1 h6
  cases h8
  obtain ⟨bs, rfl, h9, h10⟩ := aTopics_say _ _ _ _ _ _ h7
  exact ⟨ids ++ sec ++ bs, by simp, ids, sec, bs, rfl, hid, hs, h9, h10⟩

theorem aUnsubscribe_says {len n : Nat} {b rest : Bytes} {s : Unsubscribe}
    (h : Unsubscribe.asyncRead len b = .ok ((s, n), rest)) :
    ∃ bs, b = bs ++ rest ∧ BodySaysBut streaming (.unsubscribe s) bs := by
  obtain ⟨id, b1, h1, h2⟩ := Rd.bind_eq_ok.1 h
  obtain ⟨ids, rfl, -, hid⟩ := aU16_says h1
  obtain ⟨⟨P, k⟩, b2, h3, h4⟩ := Rd.bind_eq_ok.1 h2
  obtain ⟨sec, rfl, -, hs⟩ := section_streaming (s := .unsubscribe) h3
  obtain ⟨m, b3, h5, h6⟩ := Rd.bind_eq_ok.1 h4
  cases h5
  obtain ⟨⟨ts, k⟩, b4, h7, h8⟩ := Rd.bind_eq_ok.1 h6
  cases h8
  obtain ⟨bs, rfl, h9, h10⟩ := aStrs_say _ _ _ _ _ _ h7
  exact ⟨ids ++ sec ++ bs, by simp, ids, sec, bs, rfl, hid, hs, h9, h10⟩

theorem aCodesEq_say {l : List Reason} {len : Nat} : ∀ (fuel total n : Nat) (b rest : Bytes) (rs : List Reason),
    CodesAck.asyncCodesEq l len fuel total b = .ok ((rs, n), rest) →
      b = rs.map reasonNumber ++ rest ∧ (∀ r ∈ rs, r ∈ l) ∧ len = total + rs.length := by
  intro fuel
  induction fuel with
  | zero => intro total n b rest rs h; cases h
  | succ fuel ih =>
    intro total n b rest rs h
    simp only [CodesAck.asyncCodesEq, Rd.ite_apply] at h
    split at h
    · cases h
      exact ⟨rfl, by simp, by simpa⟩
    · obtain ⟨⟨r, k⟩, b1, h1, h2⟩ := Rd.bind_eq_ok.1 h
      obtain ⟨⟨rs', k'⟩, b2, h3, h4⟩ := Rd.bind_eq_ok.1 h2
      cases h4
      obtain ⟨rfl, rfl, hm⟩ := Reason.asyncRead_inv h1
      obtain ⟨rfl, h5, h6⟩ := ih _ _ _ _ _ h3
      exact ⟨rfl, by simpa using ⟨hm, h5⟩, by simp; omega⟩

theorem aCodesGe_say {l : List Reason} {len : Nat} : ∀ (fuel total n : Nat) (b rest : Bytes) (rs : List Reason),
    CodesAck.asyncCodesGe l len fuel total b = .ok ((rs, n), rest) →
      b = rs.map reasonNumber ++ rest ∧ ∀ r ∈ rs, r ∈ l := by
  intro fuel
  induction fuel with
  | zero => intro total n b rest rs h; cases h
  | succ fuel ih =>
    intro total n b rest rs h
    simp only [CodesAck.asyncCodesGe, Rd.ite_apply] at h
    split at h
    · cases h
      exact ⟨rfl, by simp⟩
    · obtain ⟨⟨r, k⟩, b1, h1, h2⟩ := Rd.bind_eq_ok.1 h
      obtain ⟨⟨rs', k'⟩, b2, h3, h4⟩ := Rd.bind_eq_ok.1 h2
      cases h4
      obtain ⟨rfl, rfl, hm⟩ := Reason.asyncRead_inv h1
      obtain ⟨rfl, h5⟩ := ih _ _ _ _ _ h3
      exact ⟨rfl, by simpa using ⟨hm, h5⟩⟩

theorem aSubAck_says {len n : Nat} {b rest : Bytes} {a : CodesAck} (h : CodesAck.asyncReadSubAck len b = .ok ((a, n), rest)) :
    ∃ bs, b = bs ++ rest ∧ bs.length = len ∧ CodesSayBut streaming .subAck .subAck a bs := by
  obtain ⟨id, b1, h1, h2⟩ := Rd.bind_eq_ok.1 h
  obtain ⟨ids, rfl, hil, hid⟩ := aU16_says h1
  obtain ⟨⟨P, k⟩, b2, h3, h4⟩ := Rd.bind_eq_ok.1 h2
  obtain ⟨sec, rfl, hsl, hs⟩ := section_streaming (s := .subAck) h3
  obtain ⟨m, b3, h5, h6⟩ := Rd.bind_eq_ok.1 h4
  cases h5
  obtain ⟨⟨rs, k⟩, b4, h7, h8⟩ := Rd.bind_eq_ok.1 h6
  cases h8
  obtain ⟨rfl, h9, h10⟩ := aCodesEq_say _ _ _ _ _ _ h7
  exact ⟨ids ++ sec ++ rs.map reasonNumber, by simp, by simp; omega, ids, sec, rfl, hid, hs,
    fun r hr => ((isCode_iff r).2.2.2.2.2.1).2 (h9 r hr)⟩

theorem aUnsubAck_says {len n : Nat} {b rest : Bytes} {a : CodesAck}
    (h : CodesAck.asyncReadUnsubAck len b = .ok ((a, n), rest)) :
    ∃ bs, b = bs ++ rest ∧ CodesSayBut streaming .unsubAck .unsubAck a bs := by
  obtain ⟨id, b1, h1, h2⟩ := Rd.bind_eq_ok.1 h
  obtain ⟨ids, rfl, hil, hid⟩ := aU16_says h1
  obtain ⟨⟨P, k⟩, b2, h3, h4⟩ := Rd.bind_eq_ok.1 h2
  obtain ⟨sec, rfl, hsl, hs⟩ := section_streaming (s := .unsubAck) h3
  obtain ⟨m, b3, h5, h6⟩ := Rd.bind_eq_ok.1 h4
  cases h5
  obtain ⟨⟨rs, k⟩, b4, h7, h8⟩ := Rd.bind_eq_ok.1 h6
  cases h8
  obtain ⟨rfl, h9⟩ := aCodesGe_say _ _ _ _ _ _ h7
  exact ⟨ids ++ sec ++ rs.map reasonNumber, by simp, ids, sec, rfl, hid, hs,
    fun r hr => ((isCode_iff r).2.2.2.2.2.2.1).2 (h9 r hr)⟩

theorem aWill_says {q : QoS} {r : Bool} {n : Nat} {b rest : Bytes} {w : LastWill}
    (h : LastWill.asyncRead q r b = .ok ((w, n), rest)) :
    (∃ bs, b = bs ++ rest ∧ WillSaysBut streaming w bs) ∧ w.qos = q ∧ w.retain = r := by
  obtain ⟨⟨P, k⟩, b1, h1, h2⟩ := Rd.bind_eq_ok.1 h
  obtain ⟨sec, rfl, -, hs⟩ := section_streaming (s := .will) h1
  obtain ⟨⟨t, k1⟩, b2, h3, h4⟩ := Rd.bind_eq_ok.1 h2
  obtain ⟨ts, rfl, -, ht⟩ := asyncReadStr_ok h3
  obtain ⟨⟨pl, k2⟩, b3, h5, h6⟩ := Rd.bind_eq_ok.1 h4
  cases h6
  obtain ⟨ps, rfl, -, hp⟩ := asyncReadBin_ok h5
  exact ⟨⟨sec ++ ts ++ ps, by simp, sec, ts, ps, rfl, hs, ht, hp⟩, rfl, rfl⟩

theorem aVersion_says {n : Nat} {b rest : Bytes} (h : asyncReadProtocolVersion b = .ok (((), n), rest)) : b = 5 :: rest := by
  obtain ⟨x, b2, g1, g2⟩ := Rd.bind_eq_ok.1 h
  rw [aU8_ok g1]
  simp only [Rd.ite_apply] at g2
  split at g2
  · rename_i hx
    cases g2
    rw [hx]
  · split at g2
    · cases g2
    · cases g2

theorem aConnect_says {n : Nat} {b rest : Bytes} {c : Connect} (h : Connect.asyncRead b = .ok ((c, n), rest)) :
    ∃ bs, b = bs ++ rest ∧ BodySaysBut streaming (.connect c) bs := by
  obtain ⟨d, b1, h1, h2⟩ := Rd.bind_eq_ok.1 h
  obtain ⟨rfl, -⟩ := aExact_ok h1
  simp only [Rd.ite_apply] at h2
  split at h2
  · cases h2
  · rename_i hd
    obtain rfl : d = [0, 4, 0x4D, 0x51, 0x54, 0x54] := Classical.not_not.1 hd
    obtain ⟨⟨⟨⟩, k⟩, b2, h3, h4⟩ := Rd.bind_eq_ok.1 h2
    rw [aVersion_says h3]
    obtain ⟨⟨f, k⟩, b3, h5, h6⟩ := Rd.bind_eq_ok.1 h4
    obtain ⟨x, b4, g1, g2⟩ := Rd.bind_eq_ok.1 h5
    obtain ⟨f', b5, g3, g4⟩ := Rd.bind_eq_ok.1 g2
    cases g4
    obtain ⟨hf, rfl⟩ := lift_ok_inv g3
    rw [aU8_ok g1]
    obtain ⟨ka, b5, h7, h8⟩ := Rd.bind_eq_ok.1 h6
    obtain ⟨ks, rfl, -, hk⟩ := aU16_says h7
    obtain ⟨⟨P, pn⟩, b6, h9, h10⟩ := Rd.bind_eq_ok.1 h8
    obtain ⟨sec, rfl, -, hs⟩ := section_streaming (s := .connect) h9
    obtain ⟨⟨ci, cn⟩, b7, h11, h12⟩ := Rd.bind_eq_ok.1 h10
    obtain ⟨cs, rfl, -, hc⟩ := asyncReadStr_ok h11
    obtain ⟨will, wn, ws, b8, rfl, hw, hw1, hw2, h13⟩ : ∃ will wn ws b8, b7 = ws ++ b8 ∧ OptSays (WillSaysBut streaming) will ws ∧
        (f.willFlag = true → ∃ w, will = some w ∧ w.qos = f.willQos ∧ w.retain = f.willRetain) ∧
        (f.willFlag = false → will = none) ∧ (do
          let (username, u) ←
            if f.username then do
              let (s, u) ← asyncReadStr
              pure (some s, u)
            else pure (none, 0)
          let (password, v) ←
            if f.password then do
              let (s, u) ← asyncReadStr
              pure (some s, u)
            else pure (none, 0)
          pure ((⟨f.cleanStart, will, username, password, ka, P, ci⟩ : Connect),
            6 + 1 + 1 + 2 + (pn + cn) + wn + (u + v))) b8 = .ok ((c, n), rest) := by
      simp only [Rd.ite_apply] at h12
      split at h12
      · rename_i hf
        obtain ⟨⟨w, wn⟩, b9, h13, h14⟩ := Rd.bind_eq_ok.1 h12
        obtain ⟨⟨ws, rfl, hw⟩, e1, e2⟩ := aWill_says h13
        exact ⟨some w, wn, ws, b9, rfl, hw, fun _ => ⟨w, rfl, e1, e2⟩, (by simp [hf]), h14⟩
      · rename_i hf
        exact ⟨none, 0, [], b7, rfl, rfl, fun h => absurd h hf, fun _ => rfl, h12⟩
    obtain ⟨user, un, us, b9, rfl, hu, hu1, h14⟩ : ∃ user un us b9, b8 = us ++ b9 ∧ OptSays StrSays user us ∧
        user.isSome = f.username ∧ (do
          let (password, v) ←
            if f.password then do
              let (s, u) ← asyncReadStr
              pure (some s, u)
            else pure (none, 0)
          pure ((⟨f.cleanStart, will, user, password, ka, P, ci⟩ : Connect),
            6 + 1 + 1 + 2 + (pn + cn) + wn + (un + v))) b9 = .ok ((c, n), rest) := by
      simp only [Rd.ite_apply] at h13
      split at h13
      · rename_i hf
        obtain ⟨⟨w, un⟩, b9, h14, h15⟩ := Rd.bind_eq_ok.1 h13
        obtain ⟨us, rfl, -, hu⟩ := asyncReadStr_ok h14
        exact ⟨some w, un, us, b9, rfl, hu, by simp [hf], h15⟩
      · rename_i hf
        exact ⟨none, 0, [], b8, rfl, rfl, by simpa using hf, h13⟩
    obtain ⟨pass, vn, ps, b10, rfl, hp, hp1, h15⟩ : ∃ pass vn ps b10, b9 = ps ++ b10 ∧ OptSays StrSays pass ps ∧
        pass.isSome = f.password ∧ (pure ((⟨f.cleanStart, will, user, pass, ka, P, ci⟩ : Connect),
            6 + 1 + 1 + 2 + (pn + cn) + wn + (un + vn)) : Rd (Connect × Nat)) b10 = .ok ((c, n), rest) := by
      simp only [Rd.ite_apply] at h14
      split at h14
      · rename_i hf
        obtain ⟨⟨w, vn⟩, b10, h15, h16⟩ := Rd.bind_eq_ok.1 h14
        obtain ⟨us, rfl, -, hu⟩ := asyncReadStr_ok h15
        exact ⟨some w, vn, us, b10, rfl, hu, by simp [hf], h16⟩
      · rename_i hf
        exact ⟨none, 0, [], b9, rfl, rfl, by simpa using hf, h14⟩
    cases h15
    exact ⟨[0, 4, 0x4D, 0x51, 0x54, 0x54, 5, x] ++ ks ++ sec ++ cs ++ ws ++ us ++ ps, by simp, x, ks, sec, cs, ws, us, ps, [],
      by simp, flags_say (by simp [streaming]) hf rfl hu1 hp1 hw1 hw2, hk, hs, hc, hw, hu, hp, .inr rfl⟩

theorem aBody_says {t : PacketType} {f : UInt8} {len : Nat} {b rest : Bytes} {p : Packet}
    (h : Packet.asyncReadPacket ⟨t, f, len⟩ b = .ok (p, rest)) :
    (∃ bs, b = bs ++ rest ∧ (len = bs.length ∨ streaming .bodyLength ∧ p.type ≠ .publish ∧ p.type ≠ .pubComp ∧ p.type ≠ .subAck) ∧
      BodySaysBut streaming p bs) ∧ p.type = t ∧ (t = .publish → f.toNat < 16 → f.toNat = flagBits p) := by
  have ht := Packet.asyncReadPacket_type h
  have hL : streaming .bodyLength := by simp [streaming]
  refine ⟨?_, ht, ?_⟩
  · cases t <;> simp only [Packet.asyncReadPacket, Rd.map] at h
    case pingReq => cases h; exact ⟨[], rfl, .inr ⟨hL, by simp [Packet.type]⟩, .inr rfl⟩
    case pingResp => cases h; exact ⟨[], rfl, .inr ⟨hL, by simp [Packet.type]⟩, .inr rfl⟩
    all_goals
      obtain ⟨⟨a, n⟩, b', h1, h2⟩ := Rd.bind_eq_ok.1 h
      cases h2
    case refine_1.connect.refl => obtain ⟨bs, e, hs⟩ := aConnect_says h1; exact ⟨bs, e, .inr ⟨hL, by simp [Packet.type]⟩, hs⟩
    case refine_1.connAck.refl => obtain ⟨bs, e, hs⟩ := aConnAck_says h1; exact ⟨bs, e, .inr ⟨hL, by simp [Packet.type]⟩, hs⟩
    case refine_1.publish.refl => obtain ⟨⟨bs, e, hl, hs⟩, -⟩ := aPublish_says h1; exact ⟨bs, e, .inl hl.symm, hs⟩
    case refine_1.pubAck.refl => obtain ⟨bs, e, hs⟩ := aPubAck_says h1; exact ⟨bs, e, .inr ⟨hL, by simp [Packet.type]⟩, hs⟩
    case refine_1.pubRec.refl => obtain ⟨bs, e, hs⟩ := aPubRec_says h1; exact ⟨bs, e, .inr ⟨hL, by simp [Packet.type]⟩, hs⟩
    case refine_1.pubRel.refl => obtain ⟨bs, e, hs⟩ := aPubRel_says h1; exact ⟨bs, e, .inr ⟨hL, by simp [Packet.type]⟩, hs⟩
    case refine_1.pubComp.refl => obtain ⟨bs, e, hl, hs⟩ := aPubComp_says h1; exact ⟨bs, e, .inl hl.symm, hs⟩
    case refine_1.subscribe.refl => obtain ⟨bs, e, hs⟩ := aSubscribe_says h1; exact ⟨bs, e, .inr ⟨hL, by simp [Packet.type]⟩, hs⟩
    case refine_1.subAck.refl => obtain ⟨bs, e, hl, hs⟩ := aSubAck_says h1; exact ⟨bs, e, .inl hl.symm, hs⟩
    case refine_1.unsubscribe.refl =>
      obtain ⟨bs, e, hs⟩ := aUnsubscribe_says h1; exact ⟨bs, e, .inr ⟨hL, by simp [Packet.type]⟩, hs⟩
    case refine_1.unsubAck.refl => obtain ⟨bs, e, hs⟩ := aUnsubAck_says h1; exact ⟨bs, e, .inr ⟨hL, by simp [Packet.type]⟩, hs⟩
    case refine_1.disconnect.refl =>
      obtain ⟨bs, e, hs⟩ := aDisconnect_says h1; exact ⟨bs, e, .inr ⟨hL, by simp [Packet.type]⟩, hs⟩
    case refine_1.auth.refl => obtain ⟨bs, e, hs⟩ := aAuth_says h1; exact ⟨bs, e, .inr ⟨hL, by simp [Packet.type]⟩, hs⟩
  · rintro rfl hf
    simp only [Packet.asyncReadPacket, Rd.map] at h
    obtain ⟨⟨a, n⟩, b', h1, h2⟩ := Rd.bind_eq_ok.1 h
    cases h2
    exact (aPublish_says h1).2 hf

theorem asyncRead_says {b rest : Bytes} {p : Packet} (h : Packet.asyncRead b = .ok (p, rest)) :
    ∃ bs, b = bs ++ rest ∧ PacketSaysBut streaming p bs := by
  obtain ⟨⟨⟨t, f, len⟩, n⟩, b1, h1, h2⟩ := Rd.bind_eq_ok.1 h
  obtain ⟨first, b2, g1, g2⟩ := Rd.bind_eq_ok.1 h1
  obtain ⟨⟨t', f'⟩, b3, g3, g4⟩ := Rd.bind_eq_ok.1 g2
  obtain ⟨ht, rfl⟩ := lift_ok_inv g3
  obtain ⟨⟨m, k⟩, b4, g5, g6⟩ := Rd.bind_eq_ok.1 g4
  cases g6
  rw [aU8_ok g1]
  obtain ⟨ls, rfl, hv, rfl, -⟩ := VarInt.asyncRead_ok g5
  obtain ⟨⟨bs, rfl, hl, hs⟩, k2, k3⟩ := aBody_says h2
  exact ⟨first :: (ls ++ bs), by simp, first, ls, bs, rfl, first_says ht k2 k3, hv, .inl (by simp [streaming]), hl, hs⟩

end Mqrstt
