import Verif.Proof.WireExact
import Verif.Proof.Bytes
import Verif.Spec.Understood
import Verif.Spec.Liberty
/-! # Streams of packets and what they say -/

namespace Mqrstt
open _root_.Spec Mqrstt.Spec Mqrstt.Props

section
variable {R : Bytes → Packet → Bytes → Prop} {says : Packet → Bytes → Prop}

/-- if a reader takes no said packet for another, what it reads are the first packets said -/
theorem prefix_said (ext : ∀ b p b' m, R b p b' → R (b ++ m) p (b' ++ m)) (hnil : ∀ p b', ¬ R [] p b')
    (hR : ∀ q b, says q b → ∀ m p r, R (b ++ m) p r → p = q ∧ r = m)
    {bs rest : Bytes} {ps : List Packet} (h : Stream R bs ps rest) {qs : List Packet} {sent : Bytes}
    (hs : ListSays says qs sent) (hb : bs <+: sent) : ps <+: qs := by
  induction h generalizing qs sent with
  | nil => exact List.nil_prefix
  | @cons bs bs' rest p ps h _ ih =>
    obtain ⟨m, e⟩ := hb
    cases hs with
    | nil =>
      simp at e
      rw [e.1] at h
      exact absurd h (hnil _ _)
    | @cons q qs b sent h2 h3 =>
      have h1 := ext _ _ _ m h
      rw [e] at h1
      obtain ⟨rfl, e2⟩ := hR _ _ h2 _ _ _ h1
      exact List.prefix_cons_inj _ |>.2 (ih h3 ⟨m, e2⟩)

/-- what is read is said by the bytes one after the other -/
theorem said_of_stream (hR : ∀ b p b', R b p b' → ∃ bs, b = bs ++ b' ∧ says p bs)
    {bs rest : Bytes} {ps : List Packet} (h : Stream R bs ps rest) : ∃ used, bs = used ++ rest ∧ ListSays says ps used := by
  induction h with
  | nil bs => exact ⟨[], rfl, .nil⟩
  | cons h _ ih =>
    obtain ⟨used, rfl, hu⟩ := ih
    obtain ⟨b, rfl, hb⟩ := hR _ _ _ h
    exact ⟨b ++ used, by simp, .cons hb hu⟩

end

/-- the buffered reader takes no packet of a server for another -/
theorem buffer_of_server (q : Packet) (b : Bytes) (h : FromServer q b) (m : Bytes) (p : Packet) (r : Bytes)
    (hr : BufferPacket (b ++ m) p r) : p = q ∧ r = m := by
  have hr : Packet.read (b ++ m) = (.ok p, r) := hr
  by_cases x1 : SubAckReason q
  · obtain ⟨e, h1⟩ := (subAckReason_fails h.2 x1 m).1
    rw [hr] at h1; simp at h1
  · by_cases x2 : Misread q b
    · obtain ⟨e, h1⟩ := (C53_short_forms_violated.2 q b (misread_short h.2 x2) x2).1 m
      rw [hr] at h1; simp at h1
    · have h1 := (packet_reads h.2 x1 x2).1 (by
        intro x3
        cases q with
        | connect c => exact h.1
        | _ => exact x3) m
      rw [hr] at h1
      cases h1
      exact ⟨rfl, rfl⟩

/-- the streaming reader takes no packet of a server for another, unless it reads on into the next one -/
theorem stream_of_server (q : Packet) (b : Bytes) (h : FromServer q b ∧ ¬ OpenEnded q b) (m : Bytes) (p : Packet) (r : Bytes)
    (hr : StreamPacket (b ++ m) p r) : p = q ∧ r = m := by
  have hr : Packet.asyncRead (b ++ m) = .ok (p, r) := hr
  obtain ⟨h, x⟩ := h
  by_cases x1 : SubAckReason q
  · obtain ⟨e, h1⟩ := (subAckReason_fails h.2 x1 m).2
    rw [hr] at h1; cases h1
  · by_cases x2 : Misread q b
    · exfalso
      have hs := misread_short h.2 x2
      cases hs with
      | ackReason hk id c hc =>
        simp only [ackKinds, List.mem_cons, List.not_mem_nil, or_false, Prod.mk.injEq] at hk
        rcases hk with ⟨rfl, rfl, rfl⟩ | ⟨rfl, rfl, rfl⟩ | ⟨rfl, rfl, rfl⟩ | ⟨rfl, rfl, rfl⟩
        · exact x2.elim
        · exact x x2
        · exact x2.elim
        · rw [List.append_assoc [_, _]] at hr
          have h1 : Packet.asyncRead ([0x70, 3] ++ (u16Bytes id ++ [c.toU8]) ++ m) = .error (.de (.insufficientData 0 4)) :=
            asyncReadFrame_of (first := 0x70) (body := u16Bytes id ++ [c.toU8]) (rest := m) rfl (by simp) rfl
          rw [hr] at h1
          cases h1
      | ackId hk id | ackFull hk id c hc =>
        simp only [ackKinds, List.mem_cons, List.not_mem_nil, or_false, Prod.mk.injEq] at hk
        rcases hk with ⟨rfl, rfl, rfl⟩ | ⟨rfl, rfl, rfl⟩ | ⟨rfl, rfl, rfl⟩ | ⟨rfl, rfl, rfl⟩ <;> simp [Misread] at x2
      | disconnect0 | disconnect1 | disconnect2 | auth0 | auth2 => exact x x2
    · have h1 := (packet_reads h.2 x1 x2).2 (by
        intro x3
        cases q with
        | subscribe c => exact h.1
        | _ => exact x3) m
      rw [hr] at h1
      cases h1
      exact ⟨rfl, rfl⟩

theorem readable_reads {p : Packet} {bs : Bytes} (h : Readable p bs) : BufferPacket bs p [] ∧ StreamPacket bs p [] := by
  obtain ⟨⟨h1, h2⟩, x1, x2⟩ := h
  obtain ⟨r1, r2⟩ := packet_reads h2 x1 x2
  have n1 : ¬ WillWithFormat p := fun x => by cases p <;> first | exact x | exact h1
  have n2 : ¬ ManyTopics p := fun x => by cases p <;> first | exact x | exact h1
  have r1 := r1 n1 []
  have r2 := r2 n2 []
  rw [List.append_nil] at r1 r2
  exact ⟨r1, r2⟩

/-- packets with their bytes -/
theorem encodings_of {qs : List Packet} {sent : Bytes} (h : ListSays Readable qs sent) :
    ∃ fs : List (Bytes × Packet), Encodings BufferPacket fs ∧ Encodings StreamPacket fs ∧ (fs.map (·.1)).flatten = sent ∧
      fs.map (·.2) = qs := by
  induction h with
  | nil => exact ⟨[], by simp [Encodings], by simp [Encodings], rfl, rfl⟩
  | @cons q qs b sent h _ ih =>
    obtain ⟨fs, h1, h2, h3, h4⟩ := ih
    obtain ⟨r1, r2⟩ := readable_reads h
    refine ⟨(b, q) :: fs, ?_, ?_, by simp [h3], by simp [h4]⟩
    · intro x hx
      rcases List.mem_cons.1 hx with rfl | hx
      · exact r1
      · exact h1 x hx
    · intro x hx
      rcases List.mem_cons.1 hx with rfl | hx
      · exact r2
      · exact h2 x hx

end Mqrstt
