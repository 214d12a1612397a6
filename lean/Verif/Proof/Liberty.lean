import Verif.Spec.Liberty
import Verif.Proof.WireRead
import Verif.Props.Codes
/-! # What the readers accept is MQTT, liberties taken -/

namespace Mqrstt
open Spec Mqrstt.Props

/-! ## Bytes -/

theorem readU16_says {b rest : Bytes} {v : UInt16} (h : readU16 b = .ok (v, rest)) : ∃ bs, b = bs ++ rest ∧ U16Says v bs :=
  Kind.read_ok (k := .u16) h

theorem aU16_says {b rest : Bytes} {v : UInt16} (h : aU16 b = .ok (v, rest)) :
    ∃ bs, b = bs ++ rest ∧ bs.length = 2 ∧ U16Says v bs := by
  obtain ⟨x, y, rfl, rfl⟩ := aU16_ok h
  exact ⟨[x, y], rfl, rfl, x, y, rfl, mkU16_toNat x y⟩

theorem Reason.read_inv {codes : List Reason} {b rest : Bytes} {r : Reason} (h : Reason.read codes b = .ok (r, rest)) :
    b = reasonNumber r :: rest ∧ r ∈ codes := by
  cases b with
  | nil => simp [Reason.read, Rd.bind_apply, bufLen, Rd.de, Rd.fail] at h
  | cons v b =>
    rw [Reason.read_cons] at h
    split at h
    · rename_i r' hr
      cases h
      obtain ⟨h1, rfl⟩ := Reason.fromU8_mem hr
      exact ⟨by rw [reasonNumber_eq], h1⟩
    · cases h

theorem Reason.asyncRead_inv {codes : List Reason} {b rest : Bytes} {r : Reason} {n : Nat}
    (h : Reason.asyncRead codes b = .ok ((r, n), rest)) : b = reasonNumber r :: rest ∧ n = 1 ∧ r ∈ codes := by
  cases b with
  | nil => simp [Reason.asyncRead, Rd.bind_apply, aU8, Rd.fail] at h
  | cons v b =>
    rw [Reason.asyncRead_cons] at h
    split at h
    · rename_i r' hr
      cases h
      obtain ⟨h1, rfl⟩ := Reason.fromU8_mem hr
      exact ⟨by rw [reasonNumber_eq], rfl, h1⟩
    · cases h

theorem connectFlags_byte (x : UInt8) (f : ConnectFlags) (h : ConnectFlags.fromU8 x = .ok f) :
    x.toNat = bitAt 7 f.username + bitAt 6 f.password + bitAt 5 f.willRetain + 8 * qosNumber f.willQos +
      bitAt 2 f.willFlag + bitAt 1 f.cleanStart + x.toNat % 2 := by
  have key : ∀ y : Fin 256, (match ConnectFlags.fromU8 (UInt8.ofNat y.val) with
      | .ok f => decide ((UInt8.ofNat y.val).toNat = bitAt 7 f.username + bitAt 6 f.password + bitAt 5 f.willRetain +
          8 * qosNumber f.willQos + bitAt 2 f.willFlag + bitAt 1 f.cleanStart + (UInt8.ofNat y.val).toNat % 2)
      | .error _ => true) = true := by decide +kernel
  have := forall_u8 (P := fun x => (match ConnectFlags.fromU8 x with
      | .ok f => decide (x.toNat = bitAt 7 f.username + bitAt 6 f.password + bitAt 5 f.willRetain +
          8 * qosNumber f.willQos + bitAt 2 f.willFlag + bitAt 1 f.cleanStart + x.toNat % 2)
      | .error _ => true) = true) key x
  rw [h] at this
  simpa using this

theorem subOptions_byte (x : UInt8) (o : SubOptions) (h : SubOptions.ofByte x = .ok o) :
    x.toNat = subOptionsByte o + 64 * (x.toNat / 64) := by
  have key : ∀ y : Fin 256, (match SubOptions.ofByte (UInt8.ofNat y.val) with
      | .ok o => decide ((UInt8.ofNat y.val).toNat = subOptionsByte o + 64 * ((UInt8.ofNat y.val).toNat / 64))
      | .error _ => true) = true := by decide +kernel
  have := forall_u8 (P := fun x => (match SubOptions.ofByte x with
      | .ok o => decide (x.toNat = subOptionsByte o + 64 * (x.toNat / 64))
      | .error _ => true) = true) key x
  rw [h] at this
  simpa using this

theorem connAckFlags_byte (x : UInt8) :
    x.toNat = bitAt 0 (x &&& 0b00000001 == 0b00000001) + 2 * (x.toNat / 2) := by
  have key : ∀ y : Fin 256, (UInt8.ofNat y.val).toNat =
      bitAt 0 (UInt8.ofNat y.val &&& 0b00000001 == 0b00000001) + 2 * ((UInt8.ofNat y.val).toNat / 2) := by decide +kernel
  exact forall_u8 (P := fun x => x.toNat = bitAt 0 (x &&& 0b00000001 == 0b00000001) + 2 * (x.toNat / 2)) key x

theorem publishFlags_byte (f : UInt8) (q : QoS) (h : QoS.fromU8 ((f &&& 0b110) >>> 1) = .ok q) (hf : f.toNat < 16) :
    f.toNat = publishFlags (f &&& 0b1000 != 0) q (f &&& 0b1 != 0) := by
  have key : ∀ y : Fin 256, (match QoS.fromU8 ((UInt8.ofNat y.val &&& 0b110) >>> 1) with
      | .ok q => decide ((UInt8.ofNat y.val).toNat < 16 → (UInt8.ofNat y.val).toNat =
          publishFlags (UInt8.ofNat y.val &&& 0b1000 != 0) q (UInt8.ofNat y.val &&& 0b1 != 0))
      | .error _ => true) = true := by decide +kernel
  have := forall_u8 (P := fun x => (match QoS.fromU8 ((x &&& 0b110) >>> 1) with
      | .ok q => decide (x.toNat < 16 → x.toNat = publishFlags (x &&& 0b1000 != 0) q (x &&& 0b1 != 0))
      | .error _ => true) = true) key f
  rw [h] at this
  simp only [decide_eq_true_eq] at this
  exact this hf

/-! ## Property sections -/

theorem foldl_last {s : Spec.Section} {p : PropertyType} (hp : repeatable s p = false) (v : p.kind.T)
    (items : List WireItem) (P : Props) :
    (items.foldl (putItem s) P).val p = some v ↔
      (∃ pre post, items = pre ++ .value p v :: post ∧ ∀ i ∈ post, i.type ≠ p) ∨
      (∀ i ∈ items, i.type ≠ p) ∧ P.val p = some v := by
  induction items generalizing P with
  | nil => simp
  | cons i is ih =>
    rw [List.foldl_cons, ih]
    constructor
    · rintro (⟨pre, post, rfl, h⟩ | ⟨h1, h2⟩)
      · exact .inl ⟨i :: pre, post, rfl, h⟩
      · by_cases hi : i.type = p
        · subst hi
          obtain ⟨w, e1, e2⟩ := putItem_val_self (P := P) hp
          rw [e2] at h2
          cases h2
          exact .inl ⟨[], is, by rw [← e1]; rfl, h1⟩
        · rw [putItem_val_inv hi] at h2
          refine .inr ⟨fun j hj => ?_, h2⟩
          rcases List.mem_cons.1 hj with rfl | hj
          · exact hi
          · exact h1 j hj
    · rintro (⟨pre, post, e, h⟩ | ⟨h1, h2⟩)
      · cases pre with
        | nil =>
          simp only [List.nil_append, List.cons.injEq] at e
          obtain ⟨rfl, rfl⟩ := e
          obtain ⟨w, e1, e2⟩ := putItem_val_self (P := P) (i := .value p v) hp
          cases e1
          exact .inr ⟨h, e2⟩
        | cons j pre =>
          simp only [List.cons_append, List.cons.injEq] at e
          obtain ⟨rfl, rfl⟩ := e
          exact .inl ⟨pre, post, rfl, h⟩
      · exact .inr ⟨fun j hj => h1 j (by simp [hj]), by rw [putItem_val_inv (h1 i (by simp))]; exact h2⟩

theorem itemsSay {L : Liberty → Prop} {stream : Bool} {s : Spec.Section} {items : List WireItem} {body : Bytes}
    (hb : ItemsBytes items body)
    (ho : items.Pairwise (fun i j => i.type = j.type → repeatable s i.type = true ∨ Overwritten stream s i.type))
    (hc : ∀ i ∈ items, s ∈ carriers i.type ∨ Foreign s i.type)
    (h1 : L .foreignSubId) (h2 : stream = true → L .repeatedSubId) (h3 : L .loneAuthData) :
    ItemsSayBut L s (items.foldl (putItem s) .empty) items := by
  refine ⟨fun i hi => (hc i hi).imp id fun h => ⟨h1, h⟩, ho.imp fun h e => (h e).imp id fun h => ⟨h2 h.1, h.2⟩, ?_, ?_, ?_, ?_, .inl h3⟩
  · intro p hp v
    rw [foldl_last hp]
    simp [Props.empty]
  · rw [foldl_users]; simp [Props.empty]
  · rw [foldl_subIds]; simp [Props.empty]
  · intro p hp
    exact putItem_repeatable hp hb rfl

theorem section_buffered {s : Spec.Section} {P : Props} {b rest : Bytes} (hs : (bufferedSpec s).split = true)
    (h : Props.syncRead (bufferedSpec s) b = .ok (P, rest)) : ∃ sec, b = sec ++ rest ∧ SectionSaysBut buffered s P sec := by
  obtain ⟨len, body, items, rfl, hv, hi, hl, rfl, ho, hc⟩ := accepted_items (stream := false) h
  refine ⟨len ++ body, by simp, len, body, items, rfl, hv, ?_, .inl (by simp [buffered]), hi,
    itemsSay hi ho hc (by simp [buffered]) (fun h => by cases h) (by simp [buffered])⟩
  rcases hl with hl | ⟨-, hn, -⟩
  · exact hl
  · rw [hs] at hn; cases hn

theorem syncLoop_rest {sp : Props.SyncSpec} : ∀ (fuel : Nat) (P Q : Props) (b rest : Bytes),
    Props.syncLoop sp fuel P b = .ok (Q, rest) → rest = [] := by
  intro fuel
  induction fuel with
  | zero => intro P Q b rest h; cases h
  | succ fuel ih =>
    intro P Q b rest h
    rw [Props.syncLoop] at h
    obtain ⟨t, b1, h1, h2⟩ := Rd.bind_eq_ok.1 h
    cases hs : Entry.select sp.entries t with
    | none => rw [hs] at h2; cases h2
    | some e =>
      rw [hs] at h2
      obtain ⟨P', b2, h3, h4⟩ := Rd.bind_eq_ok.1 h2
      obtain ⟨n, b3, h5, h6⟩ := Rd.bind_eq_ok.1 h4
      cases h5
      simp only [Rd.ite_apply] at h6
      split at h6
      · rename_i h0
        cases h6
        exact List.eq_nil_of_length_eq_zero h0
      · exact ih _ _ _ _ h6

theorem unsplit_rest {sp : Props.SyncSpec} (hsp : sp.split = false) {P : Props} {b rest : Bytes}
    (h : Props.syncRead sp b = .ok (P, rest)) :
    rest = [] ∨ ∃ len, b = len ++ rest ∧ IsVbi len ∧ vbiValue len = 0 ∧ P = .empty := by
  obtain ⟨⟨n, k⟩, b1, h1, h2⟩ := Rd.bind_eq_ok.1 h
  obtain ⟨len, rfl, hv, rfl, -⟩ := VarInt.read_ok h1
  simp only [Rd.ite_apply] at h2
  split at h2
  · rename_i h0
    cases h2
    exact .inr ⟨len, rfl, hv, h0, rfl⟩
  · left
    obtain ⟨a, b2, h3, h4⟩ := Rd.bind_eq_ok.1 h2
    cases h3
    simp only [Rd.ite_apply] at h4
    split at h4
    · cases h4
    · simp only [hsp, Bool.false_eq_true, if_false] at h4
      obtain ⟨Q, b4, h7, h8⟩ := Rd.bind_eq_ok.1 h4
      simp only [Rd.ite_apply] at h8
      split at h8
      · cases h8
      · cases h8
        exact syncLoop_rest _ _ _ _ _ h7

theorem section_acks {s : Spec.Section} {P : Props} {b rest : Bytes} (hsp : (bufferedSpec s).split = false)
    (h : Props.syncRead (bufferedSpec s) b = .ok (P, rest)) : AckSectionSaysBut buffered s P b := by
  obtain ⟨len, body, items, rfl, hv, hi, hl, rfl, ho, hc⟩ := accepted_items (stream := false) h
  have hs := itemsSay (L := buffered) hi ho hc (by simp [buffered]) (fun h => by cases h) (by simp [buffered])
  rcases hl with hl | ⟨-, hn, rfl, h1, h2⟩
  · by_cases hr : rest = []
    · subst hr
      exact .inl ⟨len, body, items, by simp, hv, hl, .inl (by simp [buffered]), hi, hs⟩
    · rcases unsplit_rest hsp h with hr' | ⟨len', e, hv', h0, hP⟩
      · exact absurd hr' hr
      · refine .inr ⟨by simp [buffered], len', rest, e, hv', .inl (by simp [buffered]), ?_, .inl ⟨h0, ?_⟩⟩
        · have := List.length_pos_iff.2 hr
          omega
        · rw [hP]; exact ⟨fun _ => rfl, rfl, rfl⟩
  · exact .inr ⟨by simp [buffered], len, body, by simp, hv, .inl (by simp [buffered]), h2, .inr ⟨by omega, items, hi, hs⟩⟩

theorem section_streaming {s : Spec.Section} {P : Props} {n : Nat} {b rest : Bytes}
    (h : Props.asyncRead (streamingEntries s) b = .ok ((P, n), rest)) :
    ∃ sec, b = sec ++ rest ∧ sec.length = n ∧ SectionSaysBut streaming s P sec := by
  obtain ⟨p, hp, hn⟩ := asyncRead_counts _ _ _ _ _ h
  obtain ⟨len, body, items, e, hv, hi, hl, rfl, ho, hc⟩ := accepted_items (stream := true) ⟨n, h⟩
  refine ⟨len ++ body, by simp [e], ?_, len, body, items, rfl, hv, ?_, .inl (by simp [streaming]), hi,
    itemsSay hi ho hc (by simp [streaming]) (fun h => by simp [streaming]) (by simp [streaming])⟩
  · rw [hp, ← List.append_assoc] at e
    rw [← List.append_cancel_right e]; exact hn
  · rcases hl with hl | ⟨hn, -⟩
    · exact hl
    · cases hn

/-! ## Buffered bodies -/

theorem ack_tail {t : PacketType} {s : Spec.Section} {codes : List Reason} (hc : ∀ r, IsCode t r ↔ r ∈ codes)
    (hsp : (bufferedSpec s).split = false) {b b1 rest : Bytes} {r : Reason} {P : Props}
    (h1 : Reason.read codes b = .ok (r, b1)) (h2 : Props.syncRead (bufferedSpec s) b1 = .ok (P, rest)) :
    ReasonSaysBut t (AckSectionSaysBut buffered s P) .success r P b := by
  obtain ⟨rfl, hm⟩ := Reason.read_inv h1
  exact .inr (.inr ⟨(hc r).2 hm, b1, rfl, section_acks hsp h2⟩)

theorem pubAck_says {b rest : Bytes} {a : Ack} (h : Ack.readPubAck b.length b = .ok (a, rest)) :
    AckSaysBut buffered .pubAck .pubAck a b := by
  simp only [Ack.readPubAck, Rd.ite_apply] at h
  split at h
  · obtain ⟨_, _, _, h⟩ := Rd.bind_eq_ok.1 h; cases h
  · obtain ⟨id, b1, h1, h2⟩ := Rd.bind_eq_ok.1 h
    obtain ⟨ids, rfl, hid⟩ := readU16_says h1
    have hlen : ids.length = 2 := by obtain ⟨x, y, rfl, -⟩ := hid; rfl
    simp only [Rd.ite_apply] at h2
    split at h2
    · cases h2
      rename_i h0
      obtain rfl : rest = [] := List.eq_nil_of_length_eq_zero (by simp at h0; omega)
      exact ⟨ids, [], by simp, hid, .inl ⟨rfl, rfl, noProps_empty⟩⟩
    · obtain ⟨r, b2, h3, h4⟩ := Rd.bind_eq_ok.1 h2
      simp only [Rd.ite_apply] at h4
      split at h4
      · rename_i h0
        cases h4
        obtain ⟨rfl, hm⟩ := Reason.read_inv h3
        obtain rfl : rest = [] := List.eq_nil_of_length_eq_zero (by simp at h0; omega)
        exact ⟨ids, _, rfl, hid, .inr (.inl ⟨((isCode_iff r).2.1).2 hm, rfl, noProps_empty⟩)⟩
      · obtain ⟨P, b3, h5, h6⟩ := Rd.bind_eq_ok.1 h4
        cases h6
        exact ⟨ids, b1, rfl, hid, ack_tail (fun r => (isCode_iff r).2.1) rfl h3 h5⟩

theorem recComp_says {t : PacketType} {s : Spec.Section} {codes : List Reason} (hc : ∀ r, IsCode t r ↔ r ∈ codes)
    (hsp : (bufferedSpec s).split = false) {b rest : Bytes} {a : Ack}
    (h : Ack.readRecComp codes (bufferedSpec s) b.length b = .ok (a, rest)) : AckSaysBut buffered t s a b := by
  simp only [Ack.readRecComp, Rd.ite_apply] at h
  split at h
  · rename_i h0
    obtain ⟨id, b1, h1, h2⟩ := Rd.bind_eq_ok.1 h
    obtain ⟨ids, rfl, hid⟩ := readU16_says h1
    have hlen : ids.length = 2 := by obtain ⟨x, y, rfl, -⟩ := hid; rfl
    cases h2
    obtain rfl : rest = [] := List.eq_nil_of_length_eq_zero (by simp at h0; omega)
    exact ⟨ids, [], by simp, hid, .inl ⟨rfl, rfl, noProps_empty⟩⟩
  · split at h
    · obtain ⟨_, _, _, h⟩ := Rd.bind_eq_ok.1 h; cases h
    · obtain ⟨id, b1, h1, h2⟩ := Rd.bind_eq_ok.1 h
      obtain ⟨ids, rfl, hid⟩ := readU16_says h1
      obtain ⟨r, b2, h3, h4⟩ := Rd.bind_eq_ok.1 h2
      obtain ⟨P, b3, h5, h6⟩ := Rd.bind_eq_ok.1 h4
      cases h6
      exact ⟨ids, b1, rfl, hid, ack_tail hc hsp h3 h5⟩

theorem pubRel_says {b rest : Bytes} {a : Ack} (h : Ack.readPubRel b.length b = .ok (a, rest)) :
    AckSaysBut buffered .pubRel .pubRel a b := by
  simp only [Ack.readPubRel, Rd.ite_apply] at h
  split at h
  · rename_i h0
    obtain ⟨id, b1, h1, h2⟩ := Rd.bind_eq_ok.1 h
    obtain ⟨ids, rfl, hid⟩ := readU16_says h1
    have hlen : ids.length = 2 := by obtain ⟨x, y, rfl, -⟩ := hid; rfl
    cases h2
    obtain rfl : rest = [] := List.eq_nil_of_length_eq_zero (by simp at h0; omega)
    exact ⟨ids, [], by simp, hid, .inl ⟨rfl, rfl, noProps_empty⟩⟩
  · split at h
    · rename_i h0
      obtain ⟨id, b1, h1, h2⟩ := Rd.bind_eq_ok.1 h
      obtain ⟨ids, rfl, hid⟩ := readU16_says h1
      have hlen : ids.length = 2 := by obtain ⟨x, y, rfl, -⟩ := hid; rfl
      obtain ⟨r, b2, h3, h4⟩ := Rd.bind_eq_ok.1 h2
      cases h4
      obtain ⟨rfl, hm⟩ := Reason.read_inv h3
      obtain rfl : rest = [] := List.eq_nil_of_length_eq_zero (by simp at h0; omega)
      exact ⟨ids, _, rfl, hid, .inr (.inl ⟨((isCode_iff r).2.2.2.1).2 hm, rfl, noProps_empty⟩)⟩
    · obtain ⟨id, b1, h1, h2⟩ := Rd.bind_eq_ok.1 h
      obtain ⟨ids, rfl, hid⟩ := readU16_says h1
      obtain ⟨r, b2, h3, h4⟩ := Rd.bind_eq_ok.1 h2
      obtain ⟨P, b3, h5, h6⟩ := Rd.bind_eq_ok.1 h4
      cases h6
      exact ⟨ids, b1, rfl, hid, ack_tail (fun r => (isCode_iff r).2.2.2.1) rfl h3 h5⟩

theorem connAck_says {n : Nat} {b rest : Bytes} {c : ConnAck} (h : ConnAck.read n b = .ok (c, rest)) :
    BodySaysBut buffered (.connAck c) b := by
  obtain ⟨m, b0, h1, h2⟩ := Rd.bind_eq_ok.1 h
  cases h1
  simp only [Rd.ite_apply] at h2
  split at h2
  · cases h2
  · obtain ⟨sp, b1, h3, h4⟩ := Rd.bind_eq_ok.1 h2
    obtain ⟨x, b2, g1, g2⟩ := Rd.bind_eq_ok.1 (afterLen (c := fun n => n = 0) (f := fun _ => DeErr.insufficientData 0 1) h3)
    cases g2
    rw [getU8_ok g1]
    obtain ⟨r, b3, h5, h6⟩ := Rd.bind_eq_ok.1 h4
    obtain ⟨P, b4, h7, h8⟩ := Rd.bind_eq_ok.1 h6
    cases h8
    obtain ⟨rfl, hm⟩ := Reason.read_inv h5
    obtain ⟨sec, rfl, hs⟩ := section_buffered (s := .connAck) rfl h7
    exact ⟨x, x.toNat / 2, sec, rest, rfl, connAckFlags_byte x, .inl (by simp [buffered]), ((isCode_iff r).1).2 hm, hs,
      .inl (by simp [buffered])⟩

theorem disconnect_says {b rest : Bytes} {d : ReasonProps} (h : Disconnect.read b.length b = .ok (d, rest)) :
    BodySaysBut buffered (.disconnect d) b := by
  simp only [Disconnect.read, Rd.ite_apply] at h
  split at h
  · rename_i h0
    cases h
    exact .inl ⟨List.eq_nil_of_length_eq_zero h0, rfl, noProps_empty⟩
  · obtain ⟨r, b3, h5, h6⟩ := Rd.bind_eq_ok.1 h
    obtain ⟨P, b4, h7, h8⟩ := Rd.bind_eq_ok.1 h6
    cases h8
    obtain ⟨rfl, hm⟩ := Reason.read_inv h5
    obtain ⟨sec, rfl, hs⟩ := section_buffered (s := .disconnect) rfl h7
    exact .inr (.inr ⟨((isCode_iff r).2.2.2.2.2.2.2.1).2 hm, _, rfl, sec, rest, rfl, hs, .inl (by simp [buffered])⟩)

theorem auth_says {b rest : Bytes} {d : ReasonProps} (h : Auth.read b = .ok (d, rest)) :
    BodySaysBut buffered (.auth d) b := by
  obtain ⟨r, b3, h5, h6⟩ := Rd.bind_eq_ok.1 h
  obtain ⟨P, b4, h7, h8⟩ := Rd.bind_eq_ok.1 h6
  cases h8
  obtain ⟨rfl, hm⟩ := Reason.read_inv h5
  obtain ⟨sec, rfl, hs⟩ := section_buffered (s := .auth) rfl h7
  exact .inr ⟨((isCode_iff r).2.2.2.2.2.2.2.2).2 hm, sec, rest, rfl, hs, .inl (by simp [buffered])⟩

theorem publish_says {f : UInt8} {b rest : Bytes} {p : Publish} (h : Publish.read f b = .ok (p, rest)) :
    BodySaysBut buffered (.publish p) b ∧ (f.toNat < 16 → f.toNat = publishFlags p.dup p.qos p.retain) := by
  obtain ⟨q, b1, h1, h2⟩ := Rd.bind_eq_ok.1 h
  obtain ⟨hq, rfl⟩ := lift_ok_inv h1
  obtain ⟨topic, b2, h3, h4⟩ := Rd.bind_eq_ok.1 h2
  obtain ⟨ts, rfl, ht⟩ := readStr_ok h3
  obtain ⟨pkid, ids, b3, rfl, hid, hi, h6⟩ : ∃ pkid ids b3, b2 = ids ++ b3 ∧ OptSays U16Says pkid ids ∧
      (pkid.isSome ↔ q ≠ .atMostOnce) ∧ (do
        let props ← Props.syncRead publishSync
        pure (⟨f &&& 0b1000 != 0, q, f &&& 0b1 != 0, topic, pkid, props, ← Publish.rest⟩ : Publish)) b3 = .ok (p, rest) := by
    simp only [Rd.ite_apply] at h4
    split at h4
    · rename_i hne
      obtain ⟨i, b6, h11, h12⟩ := Rd.bind_eq_ok.1 h4
      obtain ⟨ids, rfl, hid⟩ := readU16_says h11
      exact ⟨some i, ids, b6, rfl, hid, by simpa using hne, h12⟩
    · rename_i hne
      exact ⟨none, [], b2, rfl, rfl, by simpa using hne, h4⟩
  obtain ⟨P, b4, h7, h8⟩ := Rd.bind_eq_ok.1 h6
  obtain ⟨sec, rfl, hs⟩ := section_buffered (s := .publish) rfl h7
  obtain ⟨pl, b5, h9, h10⟩ := Rd.bind_eq_ok.1 h8
  cases h9
  cases h10
  exact ⟨⟨ts, ids, sec, by simp, ht, hid, hi, hs⟩, publishFlags_byte f q hq⟩

theorem filter_says {b b1 rest : Bytes} {t : Str} {o : SubOptions} (h1 : readStr b = .ok (t, b1))
    (h2 : SubOptions.read b1 = .ok (o, rest)) : ∃ bs, b = bs ++ rest ∧ FilterSaysBut buffered (t, o) bs := by
  obtain ⟨ts, rfl, ht⟩ := readStr_ok h1
  obtain ⟨x, b2, g1, g2⟩ := Rd.bind_eq_ok.1 (afterLen (c := fun n => n = 0) (f := fun _ => DeErr.insufficientData 0 1) h2)
  obtain ⟨e, rfl⟩ := lift_ok_inv g2
  rw [getU8_ok g1]
  exact ⟨ts ++ [x], by simp, ts, x, x.toNat / 64, rfl, ht, subOptions_byte x o e, .inl (by simp [buffered])⟩

theorem topics_say : ∀ (fuel : Nat) (b rest : Bytes) (ts : List (Str × SubOptions)),
    Subscribe.readTopics fuel b = .ok (ts, rest) → ts ≠ [] ∧ ListSays (FilterSaysBut buffered) ts b := by
  intro fuel
  induction fuel with
  | zero => intro b rest ts h; cases h
  | succ fuel ih =>
    intro b rest ts h
    rw [Subscribe.readTopics] at h
    obtain ⟨t, b1, h1, h2⟩ := Rd.bind_eq_ok.1 h
    obtain ⟨o, b2, h3, h4⟩ := Rd.bind_eq_ok.1 h2
    obtain ⟨bs, rfl, hf⟩ := filter_says h1 h3
    obtain ⟨n, b3, h5, h6⟩ := Rd.bind_eq_ok.1 h4
    cases h5
    simp only [Rd.ite_apply] at h6
    split at h6
    · rename_i h0
      cases h6
      obtain rfl : rest = [] := List.eq_nil_of_length_eq_zero h0
      exact ⟨by simp, .cons hf .nil⟩
    · obtain ⟨ts', b4, h7, h8⟩ := Rd.bind_eq_ok.1 h6
      cases h8
      exact ⟨by simp, .cons hf (ih _ _ _ h7).2⟩

theorem strs_read_say : ∀ (fuel : Nat) (b rest : Bytes) (ts : List Str),
    Unsubscribe.readTopics fuel b = .ok (ts, rest) → ts ≠ [] ∧ ListSays StrSays ts b := by
  intro fuel
  induction fuel with
  | zero => intro b rest ts h; cases h
  | succ fuel ih =>
    intro b rest ts h
    rw [Unsubscribe.readTopics] at h
    obtain ⟨t, b1, h1, h2⟩ := Rd.bind_eq_ok.1 h
    obtain ⟨bs, rfl, hf⟩ := readStr_ok h1
    obtain ⟨n, b3, h5, h6⟩ := Rd.bind_eq_ok.1 h2
    cases h5
    simp only [Rd.ite_apply] at h6
    split at h6
    · rename_i h0
      cases h6
      obtain rfl : rest = [] := List.eq_nil_of_length_eq_zero h0
      exact ⟨by simp, .cons hf .nil⟩
    · obtain ⟨ts', b4, h7, h8⟩ := Rd.bind_eq_ok.1 h6
      cases h8
      exact ⟨by simp, .cons hf (ih _ _ _ h7).2⟩

theorem subscribe_says {b rest : Bytes} {s : Subscribe} (h : Subscribe.read b = .ok (s, rest)) :
    BodySaysBut buffered (.subscribe s) b := by
  obtain ⟨id, b1, h1, h2⟩ := Rd.bind_eq_ok.1 h
  obtain ⟨ids, rfl, hid⟩ := readU16_says h1
  obtain ⟨P, b2, h3, h4⟩ := Rd.bind_eq_ok.1 h2
  obtain ⟨sec, rfl, hs⟩ := section_buffered (s := .subscribe) rfl h3
  obtain ⟨n, b3, h5, h6⟩ := Rd.bind_eq_ok.1 h4
  cases h5
  obtain ⟨ts, b4, h7, h8⟩ := Rd.bind_eq_ok.1 h6
  cases h8
  obtain ⟨h9, h10⟩ := topics_say _ _ _ _ h7
  exact ⟨ids, sec, _, by simp, hid, hs, h9, h10⟩

theorem unsubscribe_says {b rest : Bytes} {s : Unsubscribe} (h : Unsubscribe.read b = .ok (s, rest)) :
    BodySaysBut buffered (.unsubscribe s) b := by
  obtain ⟨id, b1, h1, h2⟩ := Rd.bind_eq_ok.1 h
  obtain ⟨ids, rfl, hid⟩ := readU16_says h1
  obtain ⟨P, b2, h3, h4⟩ := Rd.bind_eq_ok.1 h2
  obtain ⟨sec, rfl, hs⟩ := section_buffered (s := .unsubscribe) rfl h3
  obtain ⟨n, b3, h5, h6⟩ := Rd.bind_eq_ok.1 h4
  cases h5
  obtain ⟨ts, b4, h7, h8⟩ := Rd.bind_eq_ok.1 h6
  cases h8
  obtain ⟨h9, h10⟩ := strs_read_say _ _ _ _ h7
  exact ⟨ids, sec, _, by simp, hid, hs, h9, h10⟩

/-- re-encoding properties never takes more bytes than they took -/
theorem wireLen_le {s : Spec.Section} (hs : s ≠ .publish) {es : List Entry} (he : es = ackEntries ∨ es = subscribeEntries)
    {items : List WireItem} {b : List UInt8} (h : ItemsBytes items b) (P : Props) :
    (items.foldl (putItem s) P).wireLen es ≤ P.wireLen es + b.length := by
  induction h generalizing P with
  | nil => exact Nat.le_refl _
  | @cons i is bs cs hi his ih =>
    rw [List.foldl_cons, List.length_append]
    refine Nat.le_trans (ih _) ?_
    suffices key : (putItem s P i).wireLen es ≤ P.wireLen es + bs.length by omega
    cases i with
    | user k v =>
      obtain ⟨ks, vs, rfl, hk, hv⟩ := hi
      have e1 := str_length hk
      have e2 := str_length hv
      rcases he with rfl | rfl <;>
        simp [putItem, Props.wireLen, ackEntries, subscribeEntries, Props.entryWireLen, e1, e2] <;> omega
    | value p v =>
      obtain ⟨-, vs, rfl, hv⟩ := hi
      rw [putItem_value v (fun _ => hs)]
      by_cases h1 : p = .reasonString
      · subst h1
        have e1 := str_length hv
        rcases he with rfl | rfl <;>
          simp [Props.wireLen, ackEntries, subscribeEntries, Props.entryWireLen, Props.set, e1, Kind.wireLen] <;> omega
      · by_cases h2 : p = .subscriptionIdentifier
        · subst h2
          have e1 : VarInt.len v.toNat ≤ vs.length := by
            obtain ⟨h3, h4⟩ := hv
            rw [← h4]; exact isVbi_len_le h3
          rcases he with rfl | rfl <;>
            simp [Props.wireLen, ackEntries, subscribeEntries, Props.entryWireLen, Props.set, Kind.wireLen] <;> omega
        · rcases he with rfl | rfl <;>
            simp [Props.wireLen, ackEntries, subscribeEntries, Props.entryWireLen, Props.set, Ne.symm h1, Ne.symm h2]

theorem varLen_mono {n m : Nat} (h : n ≤ m) : VarInt.len n ≤ VarInt.len m := by
  unfold VarInt.len
  repeat' split
  all_goals omega

theorem section_size {s : Spec.Section} (hs : s ≠ .publish) (hsp : (bufferedSpec s).split = true) {es : List Entry}
    (he : es = ackEntries ∨ es = subscribeEntries) {P : Props} {b rest : Bytes}
    (h : Props.syncRead (bufferedSpec s) b = .ok (P, rest)) :
    VarInt.len (P.wireLen es) + P.wireLen es + rest.length ≤ b.length := by
  obtain ⟨len, body, items, rfl, hv, hi, hl, rfl, ho, hc⟩ := accepted_items (stream := false) h
  rcases hl with hl | ⟨-, hn, -⟩
  · have h1 := wireLen_le hs he hi .empty
    have h2 := isVbi_len_le hv
    have h3 : Props.wireLen es .empty = 0 := by
      rcases he with rfl | rfl <;> simp [Props.wireLen, ackEntries, subscribeEntries, Props.entryWireLen, Props.empty]
    rw [h3, Nat.zero_add] at h1
    have h4 := varLen_mono h1
    rw [hl] at h2
    simp only [List.length_append]
    omega
  · rw [hsp] at hn; cases hn

theorem codesGe_say {l : List Reason} {n : Nat} : ∀ (fuel read : Nat) (b rest : Bytes) (rs : List Reason),
    CodesAck.readCodesGe l n fuel read b = .ok (rs, rest) →
      b = rs.map reasonNumber ++ rest ∧ (∀ r ∈ rs, r ∈ l) ∧ n ≤ read + rs.length := by
  intro fuel
  induction fuel with
  | zero => intro read b rest rs h; cases h
  | succ fuel ih =>
    intro read b rest rs h
    simp only [CodesAck.readCodesGe, Rd.ite_apply] at h
    split at h
    · cases h
      exact ⟨rfl, by simp, by simpa⟩
    · obtain ⟨r, b1, h1, h2⟩ := Rd.bind_eq_ok.1 h
      obtain ⟨rs', b2, h3, h4⟩ := Rd.bind_eq_ok.1 h2
      cases h4
      obtain ⟨rfl, hm⟩ := Reason.read_inv h1
      obtain ⟨rfl, h5, h6⟩ := ih _ _ _ _ h3
      exact ⟨rfl, by simpa using ⟨hm, h5⟩, by simp; omega⟩

theorem codesEq_say {l : List Reason} {n : Nat} : ∀ (fuel read : Nat) (b rest : Bytes) (rs : List Reason),
    CodesAck.readCodesEq l n fuel read b = .ok (rs, rest) →
      b = rs.map reasonNumber ++ rest ∧ (∀ r ∈ rs, r ∈ l) ∧ n ≤ read + rs.length := by
  intro fuel
  induction fuel with
  | zero => intro read b rest rs h; cases h
  | succ fuel ih =>
    intro read b rest rs h
    simp only [CodesAck.readCodesEq, Rd.ite_apply] at h
    split at h
    · cases h
      exact ⟨rfl, by simp, by simp; omega⟩
    · obtain ⟨r, b1, h1, h2⟩ := Rd.bind_eq_ok.1 h
      obtain ⟨rs', b2, h3, h4⟩ := Rd.bind_eq_ok.1 h2
      cases h4
      obtain ⟨rfl, hm⟩ := Reason.read_inv h1
      obtain ⟨rfl, h5, h6⟩ := ih _ _ _ _ h3
      exact ⟨rfl, by simpa using ⟨hm, h5⟩, by simp; omega⟩

theorem subAck_says {b rest : Bytes} {a : CodesAck} (h : CodesAck.readSubAck b.length b = .ok (a, rest)) :
    CodesSayBut buffered .subAck .subAck a b := by
  obtain ⟨id, b1, h1, h2⟩ := Rd.bind_eq_ok.1 h
  obtain ⟨ids, rfl, hid⟩ := readU16_says h1
  have hlen : ids.length = 2 := by obtain ⟨x, y, rfl, -⟩ := hid; rfl
  obtain ⟨P, b2, h3, h4⟩ := Rd.bind_eq_ok.1 h2
  have hz := section_size (s := .subAck) (by simp) rfl (.inr rfl) h3
  obtain ⟨sec, rfl, hs⟩ := section_buffered (s := .subAck) rfl h3
  obtain ⟨n, b3, h5, h6⟩ := Rd.bind_eq_ok.1 h4
  cases h5
  obtain ⟨rs, b4, h7, h8⟩ := Rd.bind_eq_ok.1 h6
  cases h8
  obtain ⟨rfl, h9, h10⟩ := codesGe_say _ _ _ _ _ h7
  simp only [List.length_append, List.length_map] at h10 hz
  obtain rfl : rest = [] := List.eq_nil_of_length_eq_zero (by omega)
  exact ⟨ids, sec, by simp, hid, hs, fun r hr => ((isCode_iff r).2.2.2.2.2.1).2 (h9 r hr)⟩

theorem unsubAck_says {b rest : Bytes} {a : CodesAck} (h : CodesAck.readUnsubAck b.length b = .ok (a, rest)) :
    CodesSayBut buffered .unsubAck .unsubAck a b := by
  obtain ⟨id, b1, h1, h2⟩ := Rd.bind_eq_ok.1 h
  obtain ⟨ids, rfl, hid⟩ := readU16_says h1
  have hlen : ids.length = 2 := by obtain ⟨x, y, rfl, -⟩ := hid; rfl
  obtain ⟨P, b2, h3, h4⟩ := Rd.bind_eq_ok.1 h2
  have hz := section_size (s := .unsubAck) (by simp) rfl (.inl rfl) h3
  obtain ⟨sec, rfl, hs⟩ := section_buffered (s := .unsubAck) rfl h3
  obtain ⟨n, b3, h5, h6⟩ := Rd.bind_eq_ok.1 h4
  cases h5
  obtain ⟨rs, b4, h7, h8⟩ := Rd.bind_eq_ok.1 h6
  cases h8
  obtain ⟨rfl, h9, h10⟩ := codesEq_say _ _ _ _ _ h7
  simp only [List.length_append, List.length_map] at h10 hz
  obtain rfl : rest = [] := List.eq_nil_of_length_eq_zero (by omega)
  exact ⟨ids, sec, by simp, hid, hs, fun r hr => ((isCode_iff r).2.2.2.2.2.2.1).2 (h9 r hr)⟩

/-! ## CONNECT -/

theorem flags_say {L : Liberty → Prop} (hL : L .reserved) {x : UInt8} {f : ConnectFlags} (h : ConnectFlags.fromU8 x = .ok f)
    {c : Connect} (h1 : c.cleanStart = f.cleanStart) (h2 : c.username.isSome = f.username)
    (h3 : c.password.isSome = f.password) (h4 : f.willFlag = true → ∃ w, c.lastWill = some w ∧ w.qos = f.willQos ∧ w.retain = f.willRetain)
    (h5 : f.willFlag = false → c.lastWill = none) : FlagsSayBut L c x := by
  have hx := connectFlags_byte x f h
  have hq : qosNumber f.willQos ≤ 2 := by cases f.willQos <;> decide
  cases hw : f.willFlag with
  | true =>
    obtain ⟨w, e1, e2, e3⟩ := h4 hw
    refine ⟨x.toNat % 2, 0, 0, by omega, by omega, by omega, ?_, .inl hL, by simp⟩
    simp only [connectFlagsByte, e1, e2, e3, h1, h2, h3]
    simp only [hw] at hx
    simp only [show bitAt 2 true = 4 from rfl] at hx
    omega
  | false =>
    have e1 := h5 hw
    refine ⟨x.toNat % 2, qosNumber f.willQos, if f.willRetain then 1 else 0, by omega, hq, by split <;> omega, ?_, .inl hL,
      fun h => absurd e1 h⟩
    simp only [connectFlagsByte, e1, h1, h2, h3]
    simp only [hw, show bitAt 2 false = 0 from rfl] at hx
    have : bitAt 5 f.willRetain = 32 * (if f.willRetain then 1 else 0) := by cases f.willRetain <;> rfl
    omega

theorem will_says {q : QoS} {r : Bool} {b rest : Bytes} {w : LastWill} (h : LastWill.read q r b = .ok (w, rest)) :
    (∃ bs, b = bs ++ rest ∧ WillSaysBut buffered w bs) ∧ w.qos = q ∧ w.retain = r := by
  obtain ⟨P, b1, h1, h2⟩ := Rd.bind_eq_ok.1 h
  obtain ⟨sec, rfl, hs⟩ := section_buffered (s := .will) rfl h1
  obtain ⟨t, b2, h3, h4⟩ := Rd.bind_eq_ok.1 h2
  obtain ⟨ts, rfl, ht⟩ := readStr_ok h3
  obtain ⟨pl, b3, h5, h6⟩ := Rd.bind_eq_ok.1 h4
  cases h6
  obtain ⟨ps, rfl, hp⟩ := readBin_ok h5
  exact ⟨⟨sec ++ ts ++ ps, by simp, sec, ts, ps, rfl, hs, ht, hp⟩, rfl, rfl⟩

theorem protocol_says {b rest : Bytes} {d : Bytes} (h : readBin b = .ok (d, rest)) (hd : d = Connect.protocolName) :
    b = [0, 4, 0x4D, 0x51, 0x54, 0x54] ++ rest := by
  subst hd
  obtain ⟨bs, rfl, hb⟩ := readBin_ok h
  rw [(bin_of hb).2]
  rfl

theorem version_says {b rest : Bytes} (h : readProtocolVersion b = .ok ((), rest)) : b = 5 :: rest := by
  obtain ⟨x, b2, g1, g2⟩ := Rd.bind_eq_ok.1
    (afterLen (c := fun n => n = 0) (f := fun _ => DeErr.insufficientDataForProtocolVersion) h)
  rw [getU8_ok g1]
  simp only [Rd.ite_apply] at g2
  split at g2
  · cases g2
  · split at g2
    · rename_i hx
      cases g2
      rw [hx]
    · cases g2

theorem connect_says {b rest : Bytes} {c : Connect} (h : Connect.read b = .ok (c, rest)) :
    BodySaysBut buffered (.connect c) b := by
  obtain ⟨d, b1, h1, h2⟩ := Rd.bind_eq_ok.1 h
  simp only [Rd.ite_apply] at h2
  split at h2
  · cases h2
  · rename_i hd
    rw [protocol_says h1 (by simpa using hd)]
    obtain ⟨⟨⟩, b2, h3, h4⟩ := Rd.bind_eq_ok.1 h2
    rw [version_says h3]
    obtain ⟨f, b3, h5, h6⟩ := Rd.bind_eq_ok.1 h4
    obtain ⟨x, b4, g1, g2⟩ := Rd.bind_eq_ok.1 (afterLen (c := fun n => n = 0) (f := fun _ => DeErr.insufficientData 0 1) h5)
    obtain ⟨hf, rfl⟩ := lift_ok_inv g2
    rw [getU8_ok g1]
    obtain ⟨ka, b5, h7, h8⟩ := Rd.bind_eq_ok.1 h6
    obtain ⟨ks, rfl, hk⟩ := Kind.readUnchecked_ok (k := .u16) (.inr (.inl rfl)) h7
    obtain ⟨P, b6, h9, h10⟩ := Rd.bind_eq_ok.1 h8
    obtain ⟨sec, rfl, hs⟩ := section_buffered (s := .connect) rfl h9
    obtain ⟨ci, b7, h11, h12⟩ := Rd.bind_eq_ok.1 h10
    obtain ⟨cs, rfl, hc⟩ := readStr_ok h11
    obtain ⟨will, ws, b8, rfl, hw, hw1, hw2, h13⟩ : ∃ will ws b8, b7 = ws ++ b8 ∧ OptSays (WillSaysBut buffered) will ws ∧
        (f.willFlag = true → ∃ w, will = some w ∧ w.qos = f.willQos ∧ w.retain = f.willRetain) ∧
        (f.willFlag = false → will = none) ∧ (do
          let username ← if f.username then do pure (some (← readStr)) else pure none
          let password ← if f.password then do pure (some (← readStr)) else pure none
          pure (⟨f.cleanStart, will, username, password, ka, P, ci⟩ : Connect)) b8 = .ok (c, rest) := by
      simp only [Rd.ite_apply] at h12
      split at h12
      · rename_i hf
        obtain ⟨w, b9, h13, h14⟩ := Rd.bind_eq_ok.1 h12
        obtain ⟨⟨ws, rfl, hw⟩, e1, e2⟩ := will_says h13
        exact ⟨some w, ws, b9, rfl, hw, fun _ => ⟨w, rfl, e1, e2⟩, (by simp [hf]), h14⟩
      · rename_i hf
        exact ⟨none, [], b7, rfl, rfl, fun h => absurd h hf, fun _ => rfl, h12⟩
    obtain ⟨user, us, b9, rfl, hu, hu1, h14⟩ : ∃ user us b9, b8 = us ++ b9 ∧ OptSays StrSays user us ∧
        user.isSome = f.username ∧ (do
          let password ← if f.password then do pure (some (← readStr)) else pure none
          pure (⟨f.cleanStart, will, user, password, ka, P, ci⟩ : Connect)) b9 = .ok (c, rest) := by
      simp only [Rd.ite_apply] at h13
      split at h13
      · rename_i hf
        obtain ⟨w, b9, h14, h15⟩ := Rd.bind_eq_ok.1 h13
        obtain ⟨us, rfl, hu⟩ := readStr_ok h14
        exact ⟨some w, us, b9, rfl, hu, by simp [hf], h15⟩
      · rename_i hf
        exact ⟨none, [], b8, rfl, rfl, by simpa using hf, h13⟩
    obtain ⟨pass, ps, b10, rfl, hp, hp1, h15⟩ : ∃ pass ps b10, b9 = ps ++ b10 ∧ OptSays StrSays pass ps ∧
        pass.isSome = f.password ∧ (pure (⟨f.cleanStart, will, user, pass, ka, P, ci⟩ : Connect) : Rd Connect) b10 = .ok (c, rest) := by
      simp only [Rd.ite_apply] at h14
      split at h14
      · rename_i hf
        obtain ⟨w, b10, h15, h16⟩ := Rd.bind_eq_ok.1 h14
        obtain ⟨us, rfl, hu⟩ := readStr_ok h15
        exact ⟨some w, us, b10, rfl, hu, by simp [hf], h16⟩
      · rename_i hf
        exact ⟨none, [], b9, rfl, rfl, by simpa using hf, h14⟩
    cases h15
    exact ⟨x, ks, sec, cs, ws, us, ps, rest, by simp, flags_say (by simp [buffered]) hf rfl hu1 hp1 hw1 hw2, hk, hs, hc, hw, hu, hp,
      .inl (by simp [buffered])⟩

theorem body_says {t : PacketType} {f : UInt8} {b rest : Bytes} {p : Packet}
    (h : Packet.bodyRead ⟨t, f, b.length⟩ b = .ok (p, rest)) :
    BodySaysBut buffered p b ∧ p.type = t ∧ (t = .publish → f.toNat < 16 → f.toNat = flagBits p) := by
  have ht := Packet.bodyRead_type h
  refine ⟨?_, ht, ?_⟩
  · cases t <;> simp only [Packet.bodyRead, Rd.map] at h
    case pingReq => cases h; exact .inl (by simp [buffered])
    case pingResp => cases h; exact .inl (by simp [buffered])
    all_goals
      obtain ⟨a, b', h1, h2⟩ := Rd.bind_eq_ok.1 h
      cases h2
    case refine_1.connect.refl => exact connect_says h1
    case refine_1.connAck.refl => exact connAck_says h1
    case refine_1.publish.refl => exact (publish_says h1).1
    case refine_1.pubAck.refl => exact pubAck_says h1
    case refine_1.pubRec.refl => exact recComp_says (s := .pubRec) (fun r => (isCode_iff r).2.2.1) rfl h1
    case refine_1.pubRel.refl => exact pubRel_says h1
    case refine_1.pubComp.refl => exact recComp_says (s := .pubComp) (fun r => (isCode_iff r).2.2.2.2.1) rfl h1
    case refine_1.subscribe.refl => exact subscribe_says h1
    case refine_1.subAck.refl => exact subAck_says h1
    case refine_1.unsubscribe.refl => exact unsubscribe_says h1
    case refine_1.unsubAck.refl => exact unsubAck_says h1
    case refine_1.disconnect.refl => exact disconnect_says h1
    case refine_1.auth.refl => exact auth_says h1
  · rintro rfl hf
    simp only [Packet.bodyRead, Rd.map] at h
    obtain ⟨a, b', h1, h2⟩ := Rd.bind_eq_ok.1 h
    cases h2
    exact (publish_says h1).2 hf

theorem first_says {first f : UInt8} {t : PacketType} (h : PacketType.fromFirstByte first = .ok (t, f)) {p : Packet}
    (hp : p.type = t) (hf : t = .publish → f.toNat < 16 → f.toNat = flagBits p) :
    first.toNat = 16 * typeNumber p.type + flagBits p := by
  obtain ⟨h1, -, h3⟩ := C06_first_byte_accepted first
  obtain ⟨e1, e2⟩ := (h1 t).1 ⟨f, h⟩
  subst hp
  have hm : first.toNat % 16 = flagBits p := by
    cases p
    case publish p =>
      have e3 := h3 f h
      rw [← hf rfl (by omega), e3]
    all_goals exact e2 _ rfl
  omega

theorem read_says {b rest : Bytes} {p : Packet} (h : Packet.read b = (.ok p, rest)) :
    ∃ bs, b = bs ++ rest ∧ PacketSaysBut buffered p bs := by
  rcases Packet.read_cases b with ⟨first, len, body, rest', t, flags, rfl, ht, hv, hl⟩ | h' | h'
  · rw [Packet.read_isVbi ht hv hl] at h
    simp only [Prod.mk.injEq] at h
    obtain ⟨h, rfl⟩ := h
    cases hr : Packet.readPacket ⟨t, flags, body.length⟩ body with
    | error e => rw [hr] at h; cases h
    | ok q =>
      rw [hr] at h
      cases h
      unfold Packet.readPacket at hr
      split at hr
      · rename_i q left hb
        cases hr
        obtain ⟨k1, k2, k3⟩ := body_says hb
        exact ⟨first :: (len ++ body), by simp, first, len, body, rfl, first_says ht k2 k3, hv, .inl (by simp [buffered]),
          .inl hl, k1⟩
      · cases hr
  · obtain ⟨n, h'⟩ := h'
    rw [h'] at h
    cases h
  · obtain ⟨e, h'⟩ := h'
    rw [h'] at h
    cases h

end Mqrstt
