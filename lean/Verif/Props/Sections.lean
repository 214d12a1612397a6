import Verif.Proof.PropComplete
import Verif.Props.Robust
/-!
# C16, C54: property sections
-/

namespace Mqrstt.Props
open Mqrstt Spec Witness

/-- the hand-written reader of each section -/
def bufferedSpec : Spec.Section → SyncSpec
  | .connect => connectSync | .will => willSync | .connAck => connAckSync | .publish => publishSync
  | .pubAck => pubAckSync | .pubRec => pubRecSync | .pubRel => pubRelSync | .pubComp => pubCompSync
  | .subscribe => subscribeSync | .subAck => subAckSync | .unsubscribe => unsubscribeSync
  | .unsubAck => unsubAckSync | .disconnect => disconnectSync | .auth => authSync

/-- the list given to the macro that generates the streaming reader of each section -/
def streamingEntries (s : Spec.Section) : List Entry :=
  match s with
  | .connect => connectEntries | .will => willEntries | .connAck => connAckEntries
  | .publish => publishEntries | .pubAck | .pubRec | .pubRel | .pubComp | .unsubAck => ackEntries
  | .subscribe | .subAck => subscribeEntries | .unsubscribe => unsubscribeEntries
  | .disconnect => disconnectEntries | .auth => authEntries

theorem tablesOk (s : Spec.Section) : TableOk s (bufferedSpec s).entries ∧
    TableOk s (streamingEntries s) ∧ ∀ p ∈ (bufferedSpec s).inverted, repeatable s p = false := by
  have key : ∀ es : List Entry, (es.all fun e => match e with
      | .single p => decide (p ≠ .userProperty) &&
          decide (p = .subscriptionIdentifier → s ≠ .publish) &&
          decide (¬ (s = .subAck ∧ p = .subscriptionIdentifier) → s ∈ carriers p)
      | .subIdList => decide (s = .publish)
      | .user => decide (s ∈ carriers .userProperty)) = true → TableOk s es := by
    intro es h e he
    have := List.all_eq_true.1 h e he
    cases e <;> grind
  refine ⟨key _ ?_, key _ ?_, ?_⟩ <;> cases s <;> decide

/-- the buffered (`stream = false`) or streaming reader of the section accepts `b`, decoding `P` and
leaving `rest` -/
def Accepts (stream : Bool) (s : Spec.Section) (b : Bytes) (P : Props) (rest : Bytes) : Prop :=
  if stream then ∃ n, Props.asyncRead (streamingEntries s) b = .ok ((P, n), rest)
  else Props.syncRead (bufferedSpec s) b = .ok (P, rest)

/-- the two places where the code is more liberal than MQTT: a SUBACK may carry a subscription
identifier, and the streaming readers of SUBSCRIBE and SUBACK let it be repeated -/
def Foreign (s : Spec.Section) (t : PropertyType) : Prop := s = .subAck ∧ t = .subscriptionIdentifier
def Overwritten (stream : Bool) (s : Spec.Section) (t : PropertyType) : Prop :=
  stream = true ∧ (s = .subscribe ∨ s = .subAck) ∧ t = .subscriptionIdentifier

theorem accepted_items {stream : Bool} {s : Spec.Section} {b : Bytes} {P : Props} {rest : Bytes}
    (h : Accepts stream s b P rest) :
    ∃ len body items, b = len ++ (body ++ rest) ∧ IsVbi len ∧ ItemsBytes items body ∧
      (vbiValue len = body.length ∨ stream = false ∧ (bufferedSpec s).split = false ∧ rest = [] ∧
        0 < vbiValue len ∧ vbiValue len < body.length) ∧
      P = items.foldl (putItem s) .empty ∧
      items.Pairwise (fun i j => i.type = j.type →
        repeatable s i.type = true ∨ Overwritten stream s i.type) ∧
      (∀ i ∈ items, s ∈ carriers i.type ∨ Foreign s i.type) := by
  obtain ⟨t1, t2, t3⟩ := tablesOk s
  have hfor : ∀ {items : List WireItem}, (∀ i ∈ items,
      ¬ (s = .subAck ∧ i.type = .subscriptionIdentifier) → s ∈ carriers i.type) →
      ∀ i ∈ items, s ∈ carriers i.type ∨ Foreign s i.type := by
    intro items hc i hi
    by_cases hx : Foreign s i.type
    · exact .inr hx
    · exact .inl (hc i hi hx)
  cases stream with
  | false =>
    obtain ⟨len, body, items, rfl, hv, hi, hl, rfl, ho, hc⟩ := syncRead_ok t1 t3 h
    refine ⟨len, body, items, rfl, hv, hi, ?_, rfl, ho.imp fun h1 h2 => .inl (h1 h2), hfor hc⟩
    rcases hl with hl | hl
    · exact .inl hl
    · exact .inr ⟨rfl, hl⟩
  | true =>
    obtain ⟨n, h⟩ := h
    obtain ⟨len, body, items, rfl, hv, hi, hl, rfl, hf, hc⟩ := asyncRead_ok t2 h
    refine ⟨len, body, items, rfl, hv, hi, .inl hl, rfl, ?_, hfor hc⟩
    refine List.Pairwise.imp_of_mem ?_ (atMostOnceBut_of hf).1
    intro i j hi _ h1 h2
    rcases h1 h2 with hr | ht
    · exact .inl hr
    · rcases hfor hc i hi with h3 | h3
      · rw [ht] at h3
        simp only [carriers, List.mem_cons, List.not_mem_nil, or_false] at h3
        rcases h3 with rfl | rfl
        · left; rw [ht]; rfl
        · exact .inr ⟨rfl, .inl rfl, ht⟩
      · exact .inr ⟨rfl, .inr h3.1, ht⟩

/-- **C16, acceptance (partial).** Whatever either reader of a property section accepts is a property
section: only properties that may occur there, none twice unless it may be repeated, and the decoded
properties are exactly those. Missing: (1) a subscription identifier is accepted in SUBACK (`Foreign`);
(2) the streaming readers of SUBSCRIBE and SUBACK accept a second one (`Overwritten`);
(3) sections of publish acknowledgements in the buffered reader that are followed by something, where
the announced length is ignored. See `C16_sections_violated`. -/
theorem C16_sections_accepted_partial {stream : Bool} {s : Spec.Section} {b : Bytes} {P : Props}
    {rest : Bytes} (h : Accepts stream s b P rest)
    (x3 : stream = false → s ∈ [.pubAck, .pubRec, .pubRel, .pubComp] →
      ∀ len data, b = len ++ data → IsVbi len → data.length ≤ vbiValue len) :
    ∃ sec items, b = sec ++ rest ∧ IsSection items sec ∧
      (∀ i ∈ items, s ∈ carriers i.type ∨ Foreign s i.type) ∧
      items.Pairwise (fun i j => i.type = j.type →
        repeatable s i.type = true ∨ Overwritten stream s i.type) ∧
      (AtMostOnce s items → Decoded s items P) := by
  obtain ⟨len, body, items, rfl, hv, hi, hl, rfl, ho, hc⟩ := accepted_items h
  refine ⟨len ++ body, items, by simp, ⟨len, body, rfl, hv, ?_, hi⟩, hc, ho, decoded_of⟩
  rcases hl with hl | ⟨rfl, hsp, rfl, -, hl⟩
  · exact hl
  · have := x3 rfl (by cases s <;> first | (simp; done) | cases hsp) len (body ++ []) rfl hv
    simp at this; omega

/-- the streaming reader accepts a CONNACK section with a receive maximum and two user properties -/
example : ∃ P, Accepts true .connAck
    [17, 33, 0, 10, 38, 0, 1, 97, 0, 1, 98, 38, 0, 1, 97, 0, 1, 98, 7] P [7] := ⟨_, _, rfl⟩

/-- **C16, rejection (partial).** A section in which, after any properties, comes an unknown property
identifier, a property that does not belong there, or a second occurrence of a property that must not be
repeated, is rejected by both readers, whatever follows. Missing: subscription identifiers in SUBACK,
and repeated ones in the streaming reader of SUBSCRIBE. -/
theorem C16_sections_rejected_partial {stream : Bool} {s : Spec.Section} {len good more rest : Bytes}
    {pre : List WireItem} {x : UInt8} (hv : IsVbi len)
    (hl : vbiValue len = (good ++ x :: more).length) (hp : ItemsBytes pre good) (hx : BadNext s pre x)
    (x1 : x = propertyId .subscriptionIdentifier → s ≠ .subAck ∧ (s = .subscribe → stream = false)) :
    ∀ P r, ¬ Accepts stream s (len ++ (good ++ x :: more) ++ rest) P r := by
  intro P r h
  obtain ⟨len', body, items, e, hv', hib, hl', -, ho, hc⟩ := accepted_items h
  obtain ⟨rfl, e2⟩ : len' = len ∧ body ++ r = (good ++ x :: more) ++ rest := by
    rw [List.append_assoc] at e
    have e1 := (VarInt.isVbi_reads hv ((good ++ x :: more) ++ rest)).1
    have e2 := (VarInt.isVbi_reads hv' (body ++ r)).1
    rw [e, e2] at e1
    simp only [Except.ok.injEq, Prod.mk.injEq] at e1
    obtain ⟨-, e3⟩ := e1
    rw [e3] at e
    exact ⟨(List.append_cancel_right e).symm, e3⟩
  obtain ⟨tl, rfl⟩ : ∃ tl, body = good ++ x :: tl := by
    rcases hl' with hl' | ⟨-, -, rfl, -, -⟩
    · exact ⟨more, (List.append_inj e2 (by omega)).1⟩
    · exact ⟨more ++ rest, by simpa using e2⟩
  obtain ⟨i, tail, rfl, hi⟩ := ItemsBytes.prefix hp hib rfl
  have hns : i.type = .subscriptionIdentifier → s ≠ .subAck ∧ (s = .subscribe → stream = false) := by
    intro ht; exact x1 (by rw [← hi, ht])
  rcases hx with h1 | ⟨p, h1, h2⟩ | ⟨p, h1, h2, j, hj, rfl⟩
  · exact h1 _ hi
  · rw [← propertyId_inj (hi.trans h1.symm)] at h2
    rcases hc i (by simp) with h3 | h3
    · exact h2 h3
    · exact (hns h3.2).1 h3.1
  · have he := propertyId_inj (hi.trans h1.symm)
    rcases (List.pairwise_append.1 ho).2.2 j hj i (by simp) he.symm with h3 | ⟨h3, h4, h5⟩
    · rw [h2] at h3; cases h3
    · obtain ⟨g1, g2⟩ := hns (he.trans h5)
      rcases h4 with h4 | h4
      · rw [g2 h4] at h3; cases h3
      · exact g1 h4

/-- a DISCONNECT with two reason strings, and a PUBLISH with a server reference -/
example : BadNext .disconnect [.value .reasonString Str.empty] 0x1f ∧ BadNext .publish [] 0x1c :=
  ⟨.inr (.inr ⟨.reasonString, rfl, rfl, _, List.mem_singleton.2 rfl, rfl⟩), .inr (.inl ⟨.serverReference, rfl, by decide⟩)⟩

/-- **C16 is violated** in each of the places left out above: a SUBACK section with a subscription
identifier is accepted by both readers; the streaming reader of SUBSCRIBE accepts two subscription
identifiers and keeps the last; the buffered reader of a PUBACK section that announces two bytes
accepts six. -/
theorem C16_sections_violated :
    (∀ stream, ∃ P, Accepts stream .subAck [2, 0x0b, 5] P []) ∧ Spec.Section.subAck ∉ carriers .subscriptionIdentifier ∧
    (∃ P, Accepts true .subscribe [4, 0x0b, 5, 0x0b, 6] P [] ∧ P.val .subscriptionIdentifier = some (6 : UInt32)) ∧
    (∃ P, Accepts false .pubAck [2, 0x26, 0, 1, 97, 0, 1, 98] P [] ∧ P.users.length = 1) := by
  refine ⟨fun stream => ?_, by decide, ⟨_, ⟨_, rfl⟩, rfl⟩, ⟨_, rfl, rfl⟩⟩
  cases stream
  · exact ⟨_, rfl⟩
  · exact ⟨_, _, rfl⟩

theorem armsOk : ∀ (s : Spec.Section) (t : PropertyType), s ∈ carriers t → ¬ (s = .subAck ∧ t = .reasonString) →
    Entry.select (bufferedSpec s).entries t = some (armOf s t) ∧
    Entry.select (streamingEntries s) t = some (armOf s t) := by
  intro s t
  cases t <;> cases s <;> decide

/-- **C16, completeness (partial).** Every property section that MQTT allows, properties in any order,
is read by both readers and the decoded properties are exactly those on the wire. Missing: reason
strings in SUBACK (`C54_suback_violated`), a payload format indicator in the last will for the
buffered reader, and for the buffered reader of publish acknowledgements sections followed by more
bytes. -/
theorem C16_sections_complete_partial {s : Spec.Section} {items : List WireItem} {sec rest : Bytes}
    (h : IsSection items sec) (hc : ∀ i ∈ items, s ∈ carriers i.type) (ho : AtMostOnce s items)
    (hauth : (∃ v, .value .authenticationData v ∈ items) → ∃ v, .value .authenticationMethod v ∈ items)
    (x1 : s = .subAck → ∀ i ∈ items, i.type ≠ .reasonString) :
    (∃ P, Accepts true s (sec ++ rest) P rest ∧ Decoded s items P) ∧
    ((s = .will → ∀ i ∈ items, i.type ≠ .payloadFormatIndicator) →
     (s ∈ [.pubAck, .pubRec, .pubRel, .pubComp] → rest = []) →
     ∃ P, Accepts false s (sec ++ rest) P rest ∧ Decoded s items P) := by
  have arms := fun i hi => armsOk s (i : WireItem).type (hc i hi) (fun e => x1 e.1 i hi e.2)
  refine ⟨⟨_, ⟨_, asyncRead_complete h (fun i hi => (arms i hi).2) ho⟩, decoded_of ho⟩, fun x2 x3 => ?_⟩
  refine ⟨_, syncRead_complete h (fun i hi => (arms i hi).1) ?_ ho (fun _ => hauth) ?_, decoded_of ho⟩
  · intro i hi hm
    cases s <;> simp [bufferedSpec, connectSync, willSync, connAckSync, publishSync, pubAckSync, pubRecSync,
      pubRelSync, pubCompSync, subscribeSync, subAckSync, unsubscribeSync, unsubAckSync, disconnectSync,
      authSync] at hm
    exact x2 rfl i hi hm
  · intro hs
    apply x3
    cases s <;> first | (simp; done) | cases hs

/-- a DISCONNECT section with a user property before the reason string -/
example : IsSection [.user Str.empty Str.empty, .value .reasonString Str.empty] [8, 0x26, 0, 0, 0, 0, 0x1f, 0, 0] ∧
    AtMostOnce .disconnect [.user Str.empty Str.empty, .value .reasonString Str.empty] := by
  refine ⟨⟨[8], _, rfl, ⟨[], 8, rfl, by decide, by simp, by unfold more; decide⟩, rfl, ?_⟩, ?_⟩
  · exact .cons (bs := [0x26, 0, 0, 0, 0]) ⟨[0, 0], [0, 0], rfl, ⟨0, 0, rfl, rfl⟩, ⟨0, 0, rfl, rfl⟩⟩
      (.cons (bs := [0x1f, 0, 0]) ⟨by decide, [0, 0], rfl, ⟨0, 0, rfl, rfl⟩⟩ .nil)
  · simp [AtMostOnce, WireItem.type]

/-! ## C54 -/

theorem asyncReadFrame_isVbi {first : UInt8} {t : PacketType} {flags : UInt8} {len body : Bytes}
    (ht : PacketType.fromFirstByte first = .ok (t, flags)) (hv : IsVbi len)
    (hb : vbiValue len = body.length) {rest : Bytes} :
    Packet.asyncRead (first :: (len ++ (body ++ rest))) =
      Packet.asyncReadPacket ⟨t, flags, body.length⟩ (body ++ rest) := by
  have hh := FixedHeader.asyncRead_isVbi first hv (body ++ rest)
  rw [ht] at hh
  simp only [hb] at hh
  rw [Packet.asyncRead, Rd.bind_ok hh]

theorem Rd.map_eq_ok {α β} {f : α → β} {r : Rd α} {b b' : Bytes} {q : β} (h : Rd.map f r b = .ok (q, b')) :
    ∃ a, r b = .ok (a, b') ∧ q = f a := by
  obtain ⟨a, b1, h1, h2⟩ := Rd.bind_eq_ok.1 h
  cases h2
  exact ⟨a, h1, rfl⟩

theorem readFrame_isVbi {first : UInt8} {t : PacketType} {flags : UInt8} {len body r : Bytes} {p : Packet}
    (ht : PacketType.fromFirstByte first = .ok (t, flags)) (hv : IsVbi len)
    (hb : vbiValue len = body.length)
    (h : Packet.bodyRead ⟨t, flags, body.length⟩ body = .ok (p, r)) (rest : Bytes) :
    Packet.read (first :: (len ++ (body ++ rest))) = (.ok p, rest) := by
  have := Packet.read_isVbi ht hv hb rest
  simp only [Packet.readPacket, h] at this
  exact this

theorem readFrame_isVbi_err {first : UInt8} {t : PacketType} {flags : UInt8} {len body : Bytes}
    (ht : PacketType.fromFirstByte first = .ok (t, flags)) (hv : IsVbi len)
    (hb : vbiValue len = body.length)
    (h : ∀ p r, Packet.bodyRead ⟨t, flags, body.length⟩ body ≠ .ok (p, r)) (rest : Bytes) :
    ∃ e, Packet.read (first :: (len ++ (body ++ rest))) = (.error e, rest) := by
  have := Packet.read_isVbi ht hv hb rest
  cases hc : Packet.bodyRead ⟨t, flags, body.length⟩ body with
  | ok q => exact absurd hc (h q.1 q.2)
  | error e =>
    simp only [Packet.readPacket, hc] at this
    exact ⟨_, this⟩

/-- the shortest variable byte integer for its value -/
def Shortest (len : Bytes) : Prop :=
  ∀ len', IsVbi len' → vbiValue len' = vbiValue len → len.length ≤ len'.length

/-- a SUBACK or UNSUBACK on the wire: packet identifier, property section, reason codes -/
structure CodesPacket (first : UInt8) (id : UInt16) (items : List WireItem) (codes : List Reason)
    (bs : Bytes) : Prop where
  shape : ∃ len plen props, bs = first :: (len ++ (u16Bytes id ++ (plen ++ props) ++ codes.map Reason.toU8)) ∧
    IsVbi len ∧ vbiValue len = (u16Bytes id ++ (plen ++ props) ++ codes.map Reason.toU8).length ∧
    IsVbi plen ∧ Shortest plen ∧ vbiValue plen = props.length ∧ ItemsBytes items props

/-- **C54 (partial).** SUBACK and UNSUBACK packets carrying properties MQTT defines for them, in any
order, are decoded by both readers. Missing: the reason string of SUBACK. -/
theorem C54_suback_unsuback_partial {id : UInt16} {items : List WireItem} {codes : List Reason}
    {bs rest : Bytes} :
    (CodesPacket 0xB0 id items codes bs → (∀ i ∈ items, .unsubAck ∈ carriers i.type) →
      AtMostOnce .unsubAck items → (∀ c ∈ codes, c ∈ Reason.unsubAck) →
      ∃ P, Decoded .unsubAck items P ∧ Packet.read (bs ++ rest) = (.ok (.unsubAck ⟨id, P, codes⟩), rest) ∧
        Packet.asyncRead (bs ++ rest) = .ok (.unsubAck ⟨id, P, codes⟩, rest)) ∧
    (CodesPacket 0x90 id items codes bs → (∀ i ∈ items, .subAck ∈ carriers i.type) →
      AtMostOnce .subAck items → (∀ c ∈ codes, c ∈ Reason.subAck) → (∀ i ∈ items, i.type ≠ .reasonString) →
      ∃ P, Decoded .subAck items P ∧ Packet.read (bs ++ rest) = (.ok (.subAck ⟨id, P, codes⟩), rest) ∧
        Packet.asyncRead (bs ++ rest) = .ok (.subAck ⟨id, P, codes⟩, rest)) := by
  constructor
  · rintro ⟨len, plen, props, rfl, hv, hl, hpv, hps, hpl, hib⟩ hc ho hcodes
    have hsec : IsSection items (plen ++ props) := ⟨plen, props, rfl, hpv, hpl, hib⟩
    have arms := fun i hi => armsOk .unsubAck (i : WireItem).type (hc i hi) (by simp)
    have h1 := syncRead_complete (sp := unsubAckSync) (s := .unsubAck) (rest := codes.map Reason.toU8) hsec
      (fun i hi => (arms i hi).1) (by simp [unsubAckSync]) ho (by simp [unsubAckSync]) (by simp [unsubAckSync])
    have h2 := fun r => asyncRead_complete (es := ackEntries) (s := .unsubAck) (rest := r) hsec
      (fun i hi => (arms i hi).2) ho
    have hw := wireLen_put (s := .unsubAck) (P := .empty) hib (.inl ⟨rfl, fun i hi => by
      have := hc i hi
      revert this
      generalize i.type = t
      cases t <;> simp [carriers]⟩) (fresh_of ho fun _ _ _ => rfl)
    have hw : (items.foldl (putItem .unsubAck) .empty).wireLen ackEntries = props.length := by
      rw [hw]; simp [Props.wireLen, ackEntries, Props.entryWireLen, Props.empty]
    have hm := isVbi_minimal hpv hps
    rw [hpl] at hm
    refine ⟨_, decoded_of ho, ?_, ?_⟩
    · rw [List.cons_append, List.append_assoc len]
      have h3 := readCodesEq_ok nodup_codes.2.2.2.2.2.2.1 codes hcodes [] (codes.length + 1)
        (2 + plen.length + props.length) (by omega)
      rw [List.append_nil] at h3
      refine readFrame_isVbi (t := .unsubAck) (flags := 0) rfl hv hl (r := []) (Rd.map_ok ?_) rest
      rw [CodesAck.readUnsubAck, List.append_assoc, Rd.bind_ok (readU16_u16Bytes _ _), Rd.bind_ok h1]
      simp only [hw, ← hm]
      simp [Rd.bind_apply] at h3 ⊢
      rw [show 2 + (plen.length + (props.length + codes.length)) =
        2 + plen.length + props.length + codes.length by omega, h3]
    · rw [List.cons_append, List.append_assoc len, asyncReadFrame_isVbi (t := .unsubAck) (flags := 0) rfl hv hl]
      have h3 := asyncCodesGe_ok nodup_codes.2.2.2.2.2.2.1 codes hcodes rest (codes.length + rest.length + 1)
        (2 + (plen ++ props).length) (by omega)
      refine Rd.map_ok (a := ((⟨id, items.foldl (putItem .unsubAck) .empty, codes⟩ : CodesAck), 2 + (plen ++ props).length + codes.length)) ?_
      rw [CodesAck.asyncReadUnsubAck, List.append_assoc (u16Bytes id ++ (plen ++ props)), List.append_assoc (u16Bytes id) (plen ++ props) (_ ++ rest), Rd.bind_ok (aU16_u16Bytes _ _), Rd.bind_ok (h2 _)]
      simp [Rd.bind_apply] at h3 ⊢
      rw [show 2 + (plen.length + (props.length + codes.length)) =
        2 + (plen.length + props.length) + codes.length by omega, h3]
  · rintro ⟨len, plen, props, rfl, hv, hl, hpv, hps, hpl, hib⟩ hc ho hcodes hnr
    have hsec : IsSection items (plen ++ props) := ⟨plen, props, rfl, hpv, hpl, hib⟩
    have arms := fun i hi => armsOk .subAck (i : WireItem).type (hc i hi) (fun e => hnr i hi e.2)
    have h1 := syncRead_complete (sp := subAckSync) (s := .subAck) (rest := codes.map Reason.toU8) hsec
      (fun i hi => (arms i hi).1) (by simp [subAckSync]) ho (by simp [subAckSync]) (by simp [subAckSync])
    have h2 := fun r => asyncRead_complete (es := subscribeEntries) (s := .subAck) (rest := r) hsec
      (fun i hi => (arms i hi).2) ho
    have hw := wireLen_put (s := .subAck) (P := .empty) hib (.inr ⟨rfl, fun i hi => by
      have := hc i hi
      have h2 := hnr i hi
      revert this h2
      generalize i.type = t
      cases t <;> simp [carriers]⟩) (fresh_of ho fun _ _ _ => rfl)
    have hw : (items.foldl (putItem .subAck) .empty).wireLen subscribeEntries = props.length := by
      rw [hw]; simp [Props.wireLen, subscribeEntries, Props.entryWireLen, Props.empty]
    have hm := isVbi_minimal hpv hps
    rw [hpl] at hm
    refine ⟨_, decoded_of ho, ?_, ?_⟩
    · rw [List.cons_append, List.append_assoc len]
      have h3 := readCodesGe_ok nodup_codes.2.2.2.2.2.1 codes hcodes [] (codes.length + 1)
        (2 + plen.length + props.length) (by omega)
      rw [List.append_nil] at h3
      refine readFrame_isVbi (t := .subAck) (flags := 0) rfl hv hl (r := []) (Rd.map_ok ?_) rest
      rw [CodesAck.readSubAck, List.append_assoc, Rd.bind_ok (readU16_u16Bytes _ _), Rd.bind_ok h1]
      simp only [hw, ← hm]
      simp [Rd.bind_apply] at h3 ⊢
      rw [show 2 + (plen.length + (props.length + codes.length)) =
        2 + plen.length + props.length + codes.length by omega, h3]
    · rw [List.cons_append, List.append_assoc len, asyncReadFrame_isVbi (t := .subAck) (flags := 0) rfl hv hl]
      have h3 := asyncCodesEq_ok nodup_codes.2.2.2.2.2.1 codes hcodes rest (codes.length + rest.length + 1)
        (2 + (plen ++ props).length) (by omega)
      refine Rd.map_ok (a := ((⟨id, items.foldl (putItem .subAck) .empty, codes⟩ : CodesAck), 2 + (plen ++ props).length + codes.length)) ?_
      rw [CodesAck.asyncReadSubAck, List.append_assoc (u16Bytes id ++ (plen ++ props)), List.append_assoc (u16Bytes id) (plen ++ props) (_ ++ rest), Rd.bind_ok (aU16_u16Bytes _ _), Rd.bind_ok (h2 _)]
      simp [Rd.bind_apply] at h3 ⊢
      rw [show 2 + (plen.length + (props.length + codes.length)) =
        2 + (plen.length + props.length) + codes.length by omega, h3]

/-- an UNSUBACK with a reason string after a user property -/
example : CodesPacket 0xB0 7 [.user Str.empty Str.empty, .value .reasonString Str.empty] [.success]
    [0xB0, 12, 0, 7, 8, 0x26, 0, 0, 0, 0, 0x1f, 0, 0, 0] := by
  refine ⟨[12], [8], [0x26, 0, 0, 0, 0, 0x1f, 0, 0], rfl,
    ⟨[], 12, rfl, by decide, by simp, by unfold more; decide⟩, rfl,
    ⟨[], 8, rfl, by decide, by simp, by unfold more; decide⟩, ?_, rfl, ?_⟩
  · intro len' h _; exact VarInt.isVbi_pos h
  · exact .cons (bs := [0x26, 0, 0, 0, 0]) ⟨[0, 0], [0, 0], rfl, ⟨0, 0, rfl, rfl⟩, ⟨0, 0, rfl, rfl⟩⟩
      (.cons (bs := [0x1f, 0, 0]) ⟨by decide, [0, 0], rfl, ⟨0, 0, rfl, rfl⟩⟩ .nil)

/-- **C54 is violated**: every SUBACK that carries a reason string is refused by both readers, whatever
else it contains. -/
theorem C54_suback_violated {id : UInt16} {items : List WireItem} {codes : List Reason} {bs rest : Bytes}
    (h : CodesPacket 0x90 id items codes bs) (hr : ∃ i ∈ items, i.type = .reasonString) :
    (∃ e, Packet.read (bs ++ rest) = (.error e, rest)) ∧ ∃ e, Packet.asyncRead (bs ++ rest) = .error e := by
  obtain ⟨len, plen, props, rfl, hv, hl, hpv, hps, hpl, hib⟩ := h
  obtain ⟨i, hi, hir⟩ := hr
  have huniq : ∀ {plen' body' rest' r : Bytes} {items'}, plen ++ (props ++ r) = plen' ++ (body' ++ rest') → IsVbi plen' →
      vbiValue plen' = body'.length → ItemsBytes items' body' → items' = items := by
    intro plen' body' rest' r items' e hv' hl' hib'
    have e1 := (VarInt.isVbi_reads hpv (props ++ r)).1
    have e2 := (VarInt.isVbi_reads hv' (body' ++ rest')).1
    rw [e, e2] at e1
    simp only [Except.ok.injEq, Prod.mk.injEq] at e1
    obtain ⟨⟨e1, -⟩, e3⟩ := e1
    obtain ⟨rfl, -⟩ := List.append_inj e3 (by omega)
    exact items_unique hib' hib
  have hno : PropertyType.reasonString ∈ [PropertyType.reasonString] → Spec.Section.subscribe ∉ carriers .reasonString := by decide
  constructor
  · rw [List.cons_append, List.append_assoc len]
    refine readFrame_isVbi_err (t := .subAck) (flags := 0) rfl hv hl ?_ rest
    intro p r hp
    obtain ⟨a, hp, -⟩ := Rd.map_eq_ok hp
    rw [CodesAck.readSubAck, List.append_assoc, Rd.bind_ok (readU16_u16Bytes _ _)] at hp
    obtain ⟨P, b1, h1, -⟩ := Rd.bind_eq_ok.1 hp
    obtain ⟨plen', body', items', e, hv', hib', hl', -, -, hc⟩ := syncRead_ok (s := .subscribe) (sp := subAckSync)
      (tablesOk .subscribe).1 (by simp [subAckSync]) h1
    rw [List.append_assoc] at e
    have hl' : vbiValue plen' = body'.length := by
      rcases hl' with h | ⟨h, -⟩
      · exact h
      · cases h
    obtain rfl := huniq e hv' hl' hib'
    have := hc i hi (by simp)
    rw [hir] at this
    exact hno (by simp) this
  · rw [List.cons_append, List.append_assoc len, asyncReadFrame_isVbi (t := .subAck) (flags := 0) rfl hv hl]
    cases hp : Packet.asyncReadPacket ⟨.subAck, 0, (u16Bytes id ++ (plen ++ props) ++ codes.map Reason.toU8).length⟩
        (u16Bytes id ++ (plen ++ props) ++ codes.map Reason.toU8 ++ rest) with
    | error e => exact ⟨e, rfl⟩
    | ok q =>
      exfalso
      obtain ⟨p, r⟩ := q
      obtain ⟨a, hp, -⟩ := Rd.map_eq_ok hp
      rw [CodesAck.asyncReadSubAck, List.append_assoc (u16Bytes id ++ (plen ++ props)), List.append_assoc (u16Bytes id) (plen ++ props) (_ ++ rest), Rd.bind_ok (aU16_u16Bytes _ _)] at hp
      obtain ⟨⟨P, n⟩, b1, h1, -⟩ := Rd.bind_eq_ok.1 hp
      obtain ⟨plen', body', items', e, hv', hib', hl', -, -, hc⟩ := asyncRead_ok (s := .subscribe)
        (tablesOk .subscribe).2.1 h1
      rw [List.append_assoc] at e
      obtain rfl := huniq e hv' hl' hib'
      have := hc i hi (by simp)
      rw [hir] at this
      exact hno (by simp) this

/-- such a packet: one reason string, one code -/
example : CodesPacket 0x90 7 [.value .reasonString Str.empty] [.grantedQoS0]
    [0x90, 7, 0, 7, 3, 0x1f, 0, 0, 0] := by
  refine ⟨[7], [3], [0x1f, 0, 0], rfl,
    ⟨[], 7, rfl, by decide, by simp, by unfold more; decide⟩, rfl,
    ⟨[], 3, rfl, by decide, by simp, by unfold more; decide⟩, ?_, rfl, ?_⟩
  · intro len' h _; exact VarInt.isVbi_pos h
  · exact .cons (bs := [0x1f, 0, 0]) ⟨by decide, [0, 0], rfl, ⟨0, 0, rfl, rfl⟩⟩ .nil

end Mqrstt.Props
