import Verif.Proof.Exact
import Verif.Proof.LibertyExact
import Verif.Props.Robust
import Verif.Props.Sections
import Verif.Props.Wire
/-! # Every exception to the wire format is a failure -/

namespace Mqrstt
open Spec Mqrstt.Props

/-- the length of a body of at most 127 bytes is one byte -/
theorem lenBytes_small {n : Nat} {len : Bytes} (h : LenBytes n len) (hn : n ≤ 127) : len = [UInt8.ofNat n] := by
  have hx : (UInt8.ofNat n).toNat = n := by rw [UInt8.toNat_ofNat']; omega
  have h1 : IsVbi [UInt8.ofNat n] := ⟨[], _, rfl, by simp, by simp, by simp only [more, hx]; omega⟩
  have h2 := h.2.2 _ h1 (by simp only [vbiValue, hx]; omega)
  obtain ⟨init, last, rfl, -, -, -⟩ := h.1
  match init, h2 with
  | [], _ =>
    have := h.2.1
    simp only [List.nil_append, vbiValue] at this
    obtain rfl : last = UInt8.ofNat n := by
      apply UInt8.toNat.inj
      have h3 : ¬ more last := by
        obtain ⟨i, l, e, -, -, h3⟩ := h.1
        cases i with
        | nil => simp at e; rw [e]; exact h3
        | cons a as => simp at e
      unfold more at h3
      omega
    rfl
  | x :: xs, h2 => simp at h2

theorem misread_short {p : Packet} {bs : Bytes} (h : PacketSays p bs) (x : Misread p bs) : ShortForm p bs := by
  obtain ⟨first, len, body, rfl, hf, hlen, hb⟩ := h
  obtain rfl : first = p.firstByte := UInt8.toNat.inj (hf.trans (firstByte_says p).symm)
  have hp : 1 ≤ len.length := VarInt.isVbi_pos hlen.1
  cases p with
  | pubRec a =>
    have x : (_ :: (len ++ body)).length = 5 := x
    simp only [List.length_cons, List.length_append] at x
    rcases ack_cases (fun r => (isCode_iff r).2.2.1) hb with ⟨rfl, e⟩ | ⟨hr, rfl, e⟩ | ⟨hr, sec, rfl, hs⟩
    · rw [lenBytes_small hlen (by simp)] at x; simp at x
    · rw [lenBytes_small hlen (by simp), e]
      exact .ackReason (mk := .pubRec) (first := 0x50) (codes := Reason.pubRec) (by simp [ackKinds]) _ _ hr
    · have := sec_pos hs; simp at x; omega
  | pubComp a =>
    have x : (_ :: (len ++ body)).length = 5 := x
    simp only [List.length_cons, List.length_append] at x
    rcases ack_cases (fun r => (isCode_iff r).2.2.2.2.1) hb with ⟨rfl, e⟩ | ⟨hr, rfl, e⟩ | ⟨hr, sec, rfl, hs⟩
    · rw [lenBytes_small hlen (by simp)] at x; simp at x
    · rw [lenBytes_small hlen (by simp), e]
      exact .ackReason (mk := .pubComp) (first := 0x70) (codes := Reason.pubComp) (by simp [ackKinds]) _ _ hr
    · have := sec_pos hs; simp at x; omega
  | disconnect d =>
    have x' : (_ :: (len ++ body)).length = 3 := x
    simp only [List.length_cons, List.length_append] at x'
    obtain ⟨r, P⟩ := d
    rcases hb with ⟨rfl, e, hn⟩ | ⟨hr, rfl, hn⟩ | ⟨hr, sec, rfl, hs⟩
    · rw [lenBytes_small hlen (by simp)] at x'; simp at x'
    · obtain rfl : P = .empty := noProps_iff hn
      rw [lenBytes_small hlen (by simp), reasonNumber_eq]
      exact .disconnect1 _ (((isCode_iff r).2.2.2.2.2.2.2.1).1 hr)
    · have := sec_pos hs; simp only [List.length_cons] at x'; omega
  | auth d =>
    have x' : (_ :: (len ++ body)).length = 2 := x
    simp only [List.length_cons, List.length_append] at x'
    obtain ⟨r, P⟩ := d
    rcases hb with ⟨rfl, e, hn⟩ | ⟨hr, sec, rfl, hs⟩
    · obtain rfl : P = .empty := noProps_iff hn
      obtain rfl : r = .success := e
      rw [lenBytes_small hlen (by simp)]
      exact .auth0
    · have := sec_pos hs; simp only [List.length_cons] at x'; omega
  | _ => exact x.elim

theorem subAckReason_fails {p : Packet} {bs : Bytes} (h : PacketSays p bs) (x : SubAckReason p) (rest : Bytes) :
    (∃ e, Packet.read (bs ++ rest) = (.error e, rest)) ∧ ∃ e, Packet.asyncRead (bs ++ rest) = .error e := by
  cases p with
  | subAck a =>
    obtain ⟨first, len, body, rfl, hf, hlen, id, sec, rfl, hid, ⟨plen, props, items, rfl, hpl, hib, hc, ho, hd, -⟩, -⟩ := h
    obtain rfl : first = 0x90 := UInt8.toNat.inj (hf.trans (firstByte_says (.subAck a)).symm)
    cases hv : a.props.val .reasonString with
    | none => exact absurd hv x
    | some v =>
      have hm := (hd.1 .reasonString rfl v).1 hv
      obtain rfl := u16_of hid
      refine C54_suback_violated (id := a.id) (codes := a.codes) (items := items)
        ⟨len, plen, props, ?_, hlen.1, ?_, hpl.1, ?_, hpl.2.1, hib⟩ ⟨_, hm, rfl⟩
      · simp [reasonNumber_eq]
      · rw [hlen.2.1]; simp
      · exact fun l h1 h2 => hpl.2.2 l h1 (h2.trans hpl.2.1)
  | _ => exact x.elim

theorem manyTopics_asyncRead_fails {p : Packet} {bs : Bytes} (h : PacketSays p bs) (x : ManyTopics p) (rest : Bytes) :
    Packet.asyncRead (bs ++ rest) ≠ .ok (p, rest) := by
  cases p with
  | subscribe s =>
    obtain ⟨first, len, body, rfl, hf, hlen, idb, sec, topics, rfl, hid, hs, hne, hts⟩ := h
    obtain rfl : first = (Packet.subscribe s).firstByte := UInt8.toNat.inj (hf.trans (firstByte_says (.subscribe s)).symm)
    obtain rfl := u16_of hid
    obtain ⟨hok, rfl⟩ := filters_of hts
    obtain ⟨h1, -, -⟩ := section_reads hs (by simp)
    simp only [streamingEntries] at h1
    intro hr
    rw [List.cons_append, List.append_assoc, asyncReadFrame_isVbi (Packet.fromFirstByte_firstByte _) hlen.1 hlen.2.1] at hr
    have hr : Rd.map (fun x : Subscribe × Nat => Packet.subscribe x.1)
        (Subscribe.asyncRead (u16Bytes s.id ++ sec ++ Subscribe.topicBytes s.topics).length) _ = _ := hr
    obtain ⟨⟨s', n⟩, b, h3, h4⟩ := Rd.bind_eq_ok.1 hr
    simp only [Rd.pure_apply, Except.ok.injEq, Prod.mk.injEq, Packet.subscribe.injEq] at h4
    rw [h4.1] at h3
    cases hs : s.topics with
    | nil => exact hne hs
    | cons t ts =>
      obtain ⟨t1, o1⟩ := t
      have ht := hok (t1, o1) (by rw [hs]; simp)
      simp only [Subscribe.asyncRead, List.append_assoc,
        Rd.bind_ok (aU16_u16Bytes _ _), Rd.bind_ok (h1 _), Rd.bufLen_bind, Subscribe.topicBytes,
        Subscribe.asyncTopics, hs] at h3
      simp only [Rd.bind_apply, List.flatMap_cons, List.append_assoc,
        asyncReadStr_strBytes _ _ ht, List.singleton_append, List.cons_append, SubOptions.asyncRead_toByte, List.length_append] at h3
      rw [if_pos (by simp; omega)] at h3
      simp only [Rd.pure_apply, Except.ok.injEq, Prod.mk.injEq] at h3
      have h5 := congrArg Subscribe.topics h3.1.1
      rw [hs] at h5
      simp only [List.cons.injEq, true_and] at h5
      exact x (by rw [hs, ← h5]; rfl)
  | _ => exact x.elim

/-- the packet with empty authentication data is outside the classes the streaming reader fails on -/
theorem emptyAuth_read {p : Packet} {bs : Bytes} (wf : WF p) (x : EmptyAuthData p) (h : PacketSays p bs) :
    Packet.asyncRead bs = .ok (p, []) := by
  have hr : ∀ rest, Packet.asyncRead (bs ++ rest) = .ok (p, rest) := by
    rcases emptyAuth_cases wf x with ⟨c, rfl, e⟩ | ⟨c, rfl, e⟩ | ⟨a, rfl, e⟩
    · exact (packet_reads h (fun h => h) (fun h => h)).2 (fun h => h)
    · exact (packet_reads h (fun h => h) (fun h => h)).2 (fun h => h)
    · refine (packet_reads h (fun h => h) (fun hm => ?_)).2 (fun h => h)
      have : ∀ {q : Packet} {cs : Bytes}, ShortForm q cs → ∀ a, q = .auth a → a.props = .empty := by
        intro q cs hs
        cases hs with
        | ackId h id | ackReason h id c hc | ackFull h id c hc =>
          simp only [ackKinds, List.mem_cons, List.not_mem_nil, or_false, Prod.mk.injEq] at h
          rcases h with ⟨rfl, -, -⟩ | ⟨rfl, -, -⟩ | ⟨rfl, -, -⟩ | ⟨rfl, -, -⟩ <;> (intro a e; cases e)
        | disconnect0 | disconnect1 | disconnect2 => intro a e; cases e
        | auth0 | auth2 => intro a e; cases e; rfl
      rw [this (misread_short h hm) a rfl] at e
      cases e
  simpa using hr []

theorem foreign_not_says {p : Packet} {bs : Bytes} (x : ForeignSubId p) : ¬ PacketSays p bs := by
  cases p with
  | subAck a =>
    cases hv : a.props.val .subscriptionIdentifier with
    | none => exact absurd hv x
    | some v => exact fun h => witness_foreign (L := strictly) (fun h => h) hv (packet_strictly.2 h)
  | _ => exact x.elim

theorem assignedId_read {p : Packet} {bs : Bytes} (wf : WF p) (x : HasAssignedId p) (h : PacketSays p bs) :
    Packet.asyncRead bs = .ok (p, []) := by
  obtain ⟨c, rfl, -⟩ := assignedId_cases wf x
  simpa using (packet_reads h (fun h => h) (fun h => h)).2 (fun h => h) []

end Mqrstt
