import Verif.Proof.LibertyStream
/-! # No liberty is left out, and none is idle -/

namespace Mqrstt
open Spec Mqrstt.Props

/-! ## With no liberty -/

theorem lenBytes_iff {n : Nat} {len : Bytes} : LenBytes n len ↔ IsVbi len ∧ vbiValue len = n ∧ LeastBytes len := by
  constructor
  · rintro ⟨h1, h2, h3⟩
    exact ⟨h1, h2, fun o ho e => h3 o ho (by rw [e, h2])⟩
  · rintro ⟨h1, h2, h3⟩
    exact ⟨h1, h2, fun o ho e => h3 o ho (by rw [e, h2])⟩

theorem last_iff {s : Spec.Section} {items : List WireItem} (h : AtMostOnce s items) {p : PropertyType}
    (hp : repeatable s p = false) (v : p.kind.T) :
    (∃ pre post, items = pre ++ .value p v :: post ∧ ∀ i ∈ post, i.type ≠ p) ↔ .value p v ∈ items := by
  constructor
  · rintro ⟨pre, post, rfl, -⟩; simp
  · intro hm
    obtain ⟨pre, post, rfl⟩ := List.append_of_mem hm
    refine ⟨pre, post, rfl, fun i hi e => ?_⟩
    have h1 := (List.pairwise_cons.1 (List.pairwise_append.1 h).2.1).1 i hi
    have h2 := h1 (by rw [e]; rfl)
    rw [show (WireItem.value p v).type = p from rfl, hp] at h2
    cases h2

theorem section_strictly {s : Spec.Section} {P : Props} {bs : Bytes} :
    SectionSaysBut strictly s P bs ↔ SectionSays s P bs := by
  constructor
  · rintro ⟨len, body, items, rfl, hv, hl, hs, hi, c1, c2, c3, c4, c5, c6, c7⟩
    have hs : LeastBytes len := hs.resolve_left id
    have h2 : AtMostOnce s items := c2.imp fun h e => (h e).resolve_right fun h => h.1
    exact ⟨len, body, items, rfl, lenBytes_iff.2 ⟨hv, hl, hs⟩, hi, fun i hm => (c1 i hm).resolve_right fun h => h.1, h2,
      ⟨fun p hp v => (c3 p hp v).trans (last_iff h2 hp v), c4, c5⟩, c6, c7.resolve_left id⟩
  · rintro ⟨len, body, items, rfl, hl, hi, c1, c2, ⟨c3, c4, c5⟩, c6, c7⟩
    obtain ⟨hv, hl, hs⟩ := lenBytes_iff.1 hl
    exact ⟨len, body, items, rfl, hv, hl, .inr hs, hi, fun i hm => .inl (c1 i hm), c2.imp fun h e => .inl (h e),
      fun p hp v => (c3 p hp v).trans (last_iff c2 hp v).symm, c4, c5, c6, .inr c7⟩

theorem ack_strictly {t : PacketType} {s : Spec.Section} {a : Ack} {bs : Bytes} :
    AckSaysBut strictly t s a bs ↔ AckSays t s a bs := by
  have hs : ∀ sec, AckSectionSaysBut strictly s a.props sec ↔ SectionSays s a.props sec := fun sec =>
    ⟨fun h => section_strictly.1 (h.resolve_right fun h => h.1), fun h => .inl (section_strictly.2 h)⟩
  simp only [AckSaysBut, AckSays, ReasonSaysBut, ReasonSays, hs]

theorem codes_strictly {t : PacketType} {s : Spec.Section} {a : CodesAck} {bs : Bytes} :
    CodesSayBut strictly t s a bs ↔ CodesSay t s a bs := by
  simp only [CodesSayBut, CodesSay, section_strictly]

theorem will_strictly {w : LastWill} {bs : Bytes} : WillSaysBut strictly w bs ↔ WillSays w bs := by
  simp only [WillSaysBut, WillSays, section_strictly]

theorem filter_strictly {t : Str × SubOptions} {bs : Bytes} : FilterSaysBut strictly t bs ↔ FilterSays t bs := by
  constructor
  · rintro ⟨topic, o, u, e, h1, h2, h3⟩
    have : u = 0 := h3.resolve_left id
    exact ⟨topic, o, e, h1, by omega⟩
  · rintro ⟨topic, o, e, h1, h2⟩
    exact ⟨topic, o, 0, e, h1, by omega, .inr rfl⟩

theorem flags_strictly {c : Connect} {x : UInt8} : FlagsSayBut strictly c x ↔ x.toNat = connectFlagsByte c := by
  constructor
  · rintro ⟨a, b, d, -, -, -, h, h1, -⟩
    have := h1.resolve_left id
    omega
  · intro h
    exact ⟨0, 0, 0, by omega, by omega, by omega, by omega, .inr rfl, fun _ => ⟨rfl, rfl⟩⟩

theorem tail_strictly {bs : Bytes} : TailBut strictly bs ↔ bs = [] := ⟨fun h => h.resolve_left id, .inr⟩

theorem body_strictly {p : Packet} {bs : Bytes} : BodySaysBut strictly p bs ↔ BodySays p bs := by
  have e1 : WillSaysBut strictly = WillSays := funext fun _ => funext fun _ => propext will_strictly
  have e2 : FilterSaysBut strictly = FilterSays := funext fun _ => funext fun _ => propext filter_strictly
  cases p <;> simp only [BodySaysBut, BodySays, ack_strictly, codes_strictly, section_strictly, tail_strictly, e1, e2,
    flags_strictly]
  case connect c =>
    constructor
    · rintro ⟨f, k, s, ci, w, u, pa, t, rfl, h1, h2, h3, h4, h5, h6, h7, rfl⟩
      exact ⟨f, k, s, ci, w, u, pa, by simp, h1, h2, h3, h4, h5, h6, h7⟩
    · rintro ⟨f, k, s, ci, w, u, pa, rfl, h1, h2, h3, h4, h5, h6, h7⟩
      exact ⟨f, k, s, ci, w, u, pa, [], by simp, h1, h2, h3, h4, h5, h6, h7, rfl⟩
  case connAck c =>
    constructor
    · rintro ⟨f, u, s, t, rfl, h1, h2, h3, h4, rfl⟩
      have : u = 0 := h2.resolve_left id
      exact ⟨f, s, by simp, by omega, h3, h4⟩
    · rintro ⟨f, s, rfl, h1, h3, h4⟩
      exact ⟨f, 0, s, [], by simp, by omega, .inr rfl, h3, h4, rfl⟩
  case disconnect d =>
    have : ∀ cs, (∃ sec tail, cs = sec ++ tail ∧ SectionSays .disconnect d.props sec ∧ tail = []) ↔
        SectionSays .disconnect d.props cs := fun cs =>
      ⟨by rintro ⟨sec, tail, rfl, h, rfl⟩; simpa using h, fun h => ⟨cs, [], by simp, h, rfl⟩⟩
    simp only [ReasonSaysBut, ReasonSays, this]
  case auth d =>
    refine or_congr Iff.rfl (and_congr Iff.rfl ?_)
    constructor
    · rintro ⟨sec, tail, rfl, h, rfl⟩
      exact ⟨sec, by simp, h⟩
    · rintro ⟨sec, rfl, h⟩
      exact ⟨sec, [], by simp, h, rfl⟩

theorem packet_strictly {p : Packet} {bs : Bytes} : PacketSaysBut strictly p bs ↔ PacketSays p bs := by
  constructor
  · rintro ⟨first, len, body, rfl, h1, hv, hs, hl, hb⟩
    exact ⟨first, len, body, rfl, h1, lenBytes_iff.2 ⟨hv, hl.resolve_right fun h => h.1, hs.resolve_left id⟩, body_strictly.1 hb⟩
  · rintro ⟨first, len, body, rfl, h1, hl, hb⟩
    obtain ⟨hv, hl, hs⟩ := lenBytes_iff.1 hl
    exact ⟨first, len, body, rfl, h1, hv, .inr hs, .inl hl, body_strictly.2 hb⟩

/-! ## Each liberty is taken -/

theorem short_len {len body bs : Bytes} {x : UInt8} (hv : IsVbi len) (e : x :: bs = len ++ body) (hx : x.toNat < 128) :
    len = [x] ∧ body = bs := by
  obtain ⟨init, last, rfl, -, h1, h2⟩ := hv
  cases init with
  | nil => simp at e; exact ⟨by rw [e.1]; rfl, e.2.symm⟩
  | cons y ys =>
    simp at e
    have := h1 y (by simp)
    rw [← e.1] at this
    unfold more at this
    omega

/-- the body of a packet of less than 128 bytes -/
theorem short_body {L : Liberty → Prop} {p : Packet} {first x : UInt8} {bs : Bytes} (hx : x.toNat < 128)
    (h : PacketSaysBut L p (first :: x :: bs)) : BodySaysBut L p bs ∧ (x.toNat = bs.length ∨ L .bodyLength) := by
  obtain ⟨f, len, body, e, -, hv, -, hl, hb⟩ := h
  obtain ⟨rfl, rfl⟩ := short_len hv (List.cons.inj e).2 hx
  refine ⟨hb, hl.imp (fun h => ?_) fun h => h.1⟩
  simp only [vbiValue, Nat.mul_zero, Nat.add_zero] at h
  omega

theorem witness_long {L : Liberty → Prop} (h : ¬ L .longLength) : ¬ PacketSaysBut L .pingResp [0xD0, 0x80, 0x00] := by
  rintro ⟨f, len, body, e, -, ⟨init, last, rfl, -, h1, h2⟩, hs, -⟩
  have hs := hs.resolve_left h
  have key := hs [0] ⟨[], 0, rfl, by simp, by simp, by simp [more]⟩
  match init, h1, e with
  | [], _, e =>
    simp at e
    obtain ⟨-, rfl, -⟩ := e
    exact h2 (by simp [more])
  | [x], _, e =>
    simp at e
    obtain ⟨-, rfl, rfl, -⟩ := e
    have := key rfl
    simp at this
  | x :: y :: ys, _, e => simp at e

theorem witness_trailing {L : Liberty → Prop} (h : ¬ L .trailing) : ¬ PacketSaysBut L .pingResp [0xD0, 1, 7] := by
  intro hs
  obtain ⟨hb, -⟩ := short_body (by decide) hs
  rcases hb with hb | hb
  · exact h hb
  · cases hb

theorem witness_reserved {L : Liberty → Prop} (h : ¬ L .reserved) {c : ConnAck} :
    ¬ PacketSaysBut L (.connAck c) [0x20, 3, 2, 0, 0] := by
  intro hs
  obtain ⟨⟨f, u, sec, tail, e, hf, hu, -⟩, -⟩ := short_body (by decide) hs
  have hu : u = 0 := hu.resolve_left h
  obtain ⟨rfl, -⟩ := List.cons.inj e
  subst hu
  cases hc : c.sessionPresent <;> rw [hc] at hf <;> exact absurd hf (by decide)

theorem witness_auth {L : Liberty → Prop} (h : ¬ L .loneAuthData) {a : ReasonProps} {b : Bytes}
    (h1 : a.props.val .authenticationData ≠ none) (h2 : a.props.val .authenticationMethod = none) :
    ¬ PacketSaysBut L (.auth a) b := by
  rintro ⟨f, len, body, -, -, -, -, -, hb⟩
  rcases hb with ⟨-, -, hn⟩ | ⟨-, sec, tail, -, ⟨len, body, items, -, -, -, -, -, -, -, -, -, -, -, hs⟩, -⟩
  · exact h1 (hn.1 _)
  · exact (hs.resolve_left h) h1 h2

theorem witness_foreign {L : Liberty → Prop} (h : ¬ L .foreignSubId) {a : CodesAck} {b : Bytes} {v : UInt32}
    (h1 : a.props.val .subscriptionIdentifier = some v) : ¬ PacketSaysBut L (.subAck a) b := by
  rintro ⟨f, len, body, -, -, -, -, -, id, sec, -, -, ⟨len, body, items, -, -, -, -, -, c1, -, c3, -⟩, -⟩
  obtain ⟨pre, post, rfl, -⟩ := (c3 .subscriptionIdentifier rfl v).1 h1
  rcases c1 (.value .subscriptionIdentifier v) (by simp) with hc | hc
  · exact absurd hc (by simp [WireItem.type, carriers])
  · exact h hc.1

theorem witness_repeated {L : Liberty → Prop} (h : ¬ L .repeatedSubId) {s : Subscribe} :
    ¬ PacketSaysBut L (.subscribe s) [0x82, 11, 0, 1, 4, 0x0B, 1, 0x0B, 2, 0, 1, 0x61, 0] := by
  intro hs
  obtain ⟨⟨id, sec, topics, e, ⟨x, y, rfl, -⟩, ⟨len, body, items, rfl, hv, hl, -, hi, -, c2, -⟩, -⟩, -⟩ :=
    short_body (by decide) hs
  simp only [List.cons_append, List.nil_append, List.append_assoc, List.cons.injEq] at e
  obtain ⟨-, -, e⟩ := e
  obtain ⟨rfl, e2⟩ := short_len hv e (by decide)
  have hl : body.length = 4 := by rw [← hl]; rfl
  have hb : body = [0x0B, 1, 0x0B, 2] := by
    have := congrArg (List.take 4) e2
    rw [List.take_append_of_le_length (by omega), List.take_of_length_le (by omega)] at this
    exact this
  subst hb
  have hv : ∀ v : UInt8, v.toNat < 128 → ∀ w : UInt32, w.toNat = v.toNat →
      (WireItem.value .subscriptionIdentifier w).Bytes [0x0B, v] := fun v hv w hw =>
    ⟨by simp, [v], rfl, ⟨[], v, rfl, by simp, by simp, by simp [more]; omega⟩, by simp [vbiValue]; omega⟩
  have hi' : ItemsBytes [.value .subscriptionIdentifier (1 : UInt32), .value .subscriptionIdentifier (2 : UInt32)]
      ([0x0B, 1] ++ ([0x0B, 2] ++ [])) := .cons (hv 1 (by decide) 1 rfl) (.cons (hv 2 (by decide) 2 rfl) .nil)
  rw [items_unique hi hi'] at c2
  have := (List.pairwise_cons.1 c2).1 _ (List.mem_singleton.2 rfl) rfl
  rcases this with h' | h'
  · cases h'
  · exact h h'.1

theorem witness_section {L : Liberty → Prop} (h : ¬ L .sectionLength) {a : Ack} :
    ¬ PacketSaysBut L (.pubAck a) [0x40, 6, 0, 1, 0, 0, 7, 7] := by
  intro hs
  obtain ⟨⟨id, tail, e, ⟨x, y, rfl, -⟩, ht⟩, -⟩ := short_body (by decide) hs
  simp only [List.cons_append, List.nil_append, List.cons.injEq] at e
  obtain ⟨-, -, rfl⟩ := e
  rcases ht with ⟨e, -⟩ | ⟨-, e, -⟩ | ⟨-, sec, e, hs⟩
  · cases e
  · simp at e
  · obtain ⟨-, rfl⟩ := List.cons.inj e
    rcases hs with ⟨len, body, items, e, hv, hl, -⟩ | ⟨hs, -⟩
    · obtain ⟨rfl, rfl⟩ := short_len hv e (by decide)
      cases hl
    · exact h hs

theorem witness_body {L : Liberty → Prop} (h : ¬ L .bodyLength) : ¬ PacketSaysBut L .pingResp [0xD0, 5] := by
  intro hs
  obtain ⟨-, hb | hb⟩ := short_body (by decide) hs
  · cases hb
  · exact h hb

end Mqrstt
